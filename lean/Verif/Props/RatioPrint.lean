import Verif.Proofs.RatioHuge
import Mathlib.Data.Int.Log

/-!
# C74: decimal text of a `Ratio`

`Ratio::to_approx_string`, and the `Display` of `Ratio` that is `to_approx_string(12)`.
-/

namespace Hmath
namespace Props
open Ratio

/-- the branch that is taken -/
theorem approx_cases {q : ℚ} (h0 : q ≠ 0) (hn : (ofNat q.num.natAbs).length ≤ 2 ^ 27) (hd : (ofNat q.den).length ≤ 2 ^ 27) :
    ∃ D : Int, |D| < 2 ^ 64 ∧ EstOk |q| D ∧ EstRange |q| (est10 D) ∧ ∀ {k K : Nat}, K = max k 6 → to_approx_string (ofRat q) k =
      if (est10 D).natAbs > 9990 then hugeText (ofInt D) (if q < 0 then ['-'] else [])
      else if est10 D > (K : Int) - 3 then bigText (ofRat q) (est10 D) (if q < 0 then ['-'] else []) K
      else if est10 D < -((K : Int) - 3) then smallText (ofRat q) (est10 D) (if q < 0 then ['-'] else []) K
      else fixedText (ofRat q) (if q < 0 then ['-'] else []) K := by
  obtain ⟨D, d1, d2, d3, d4⟩ := est_c h0 hn hd
  refine ⟨D, d2, d3, estRange_of (abs_pos.2 h0) d3, ?_⟩
  have hs : (if is_neg (ofRat q) = true then ['-'] else [] : Str) = if q < 0 then ['-'] else [] := by
    rw [is_neg_c]; by_cases h : q < 0 <;> simp [h]
  rintro k K rfl
  rw [to_approx_string, d1, pure_bind, d4, pure_bind, hs]

theorem zpow_ten_le {a b : Int} (h : a ≤ b) : (10 : ℚ) ^ a ≤ 10 ^ b := zpow_le_zpow_right₀ (by norm_num) h

theorem zpow_ten_lt {a b : Int} (h : (10 : ℚ) ^ a < 10 ^ b) : a < b := (zpow_lt_zpow_iff_right₀ (by norm_num)).1 h

/-- the exponent in scientific notation is the place of the first digit -/
theorem expo_eq {N : Nat} (hN : 0 < N) {X E : Int} {c : ℚ} (h1 : N * 10 ^ X ≤ c) (h2 : c < (N + 1) * 10 ^ X)
    (e1 : 10 ^ E ≤ c) (e2 : c < 10 ^ (E + 1)) : X + Nat.log 10 N = E := by
  have l1 : ((10 ^ Nat.log 10 N : Nat) : ℚ) ≤ N := by exact_mod_cast Nat.pow_log_le_self 10 hN.ne'
  have l2 : (N : ℚ) + 1 ≤ ((10 ^ (Nat.log 10 N + 1) : Nat) : ℚ) := by
    exact_mod_cast Nat.lt_pow_succ_log_self (by norm_num) N
  have hp : (0 : ℚ) < 10 ^ X := by positivity
  have u1 : (10 : ℚ) ^ (X + Nat.log 10 N) < 10 ^ (E + 1) := by
    refine lt_of_le_of_lt ?_ (lt_of_le_of_lt h1 e2)
    rw [zpow_add₀ (by norm_num), zpow_natCast, mul_comm]
    push_cast at l1
    exact mul_le_mul_of_nonneg_right l1 hp.le
  have u2 : (10 : ℚ) ^ E < 10 ^ (X + Nat.log 10 N + 1) := by
    refine lt_of_le_of_lt e1 (lt_of_lt_of_le h2 ?_)
    rw [add_assoc, zpow_add₀ (by norm_num), mul_comm ((10 : ℚ) ^ X)]
    push_cast at l2
    have : (10 : ℚ) ^ ((Nat.log 10 N : Int) + 1) = 10 ^ (Nat.log 10 N + 1) := by
      rw [← zpow_natCast]; push_cast; rfl
    rw [this]
    exact mul_le_mul_of_nonneg_right l2 hp.le
  have := zpow_ten_lt u1
  have := zpow_ten_lt u2
  omega

theorem sciCut_length (neg : Prop) [Decidable neg] (N : Nat) (X : Int) (k : Nat) :
    (sciCutRat neg N X (sciRoom neg (X + Nat.log 10 N) k)).length ≤ max k ((expText (X + Nat.log 10 N)).length + 3) := by
  rw [sciCutRat]
  simp only [List.length_append]
  have h1 : ((stripZeros (Nat.toDigits 10 N).tail).take (sciRoom neg (X + Nat.log 10 N) k)).length ≤ sciRoom neg (X + Nat.log 10 N) k :=
    List.length_take_le _ _
  generalize (stripZeros (Nat.toDigits 10 N).tail).take (sciRoom neg (X + Nat.log 10 N) k) = f at *
  have h2 : ((Nat.toDigits 10 N).take 1).length ≤ 1 := List.length_take_le _ _
  have h3 : (if neg then ['-'] else [] : List Char).length = if neg then 1 else 0 := by split <;> rfl
  have h4 : (if f = [] then ([] : List Char) else '.' :: f).length ≤ sciRoom neg (X + Nat.log 10 N) k + 1 := by
    split <;> simp; omega
  rw [h3]
  unfold sciRoom at *
  split <;> simp_all <;> omega

theorem stripZeros_length (s : List Char) : (stripZeros s).length ≤ s.length := by
  unfold stripZeros
  rw [List.length_reverse]
  exact (List.dropWhile_sublist _).length_le.trans (by simp)

theorem sciRat_length (neg : Prop) [Decidable neg] (N : Nat) (X : Int) (k : Nat) :
    (sciRat neg N X (sciRoom neg (X + Nat.log 10 N) k + 1)).length ≤ max k ((expText (X + Nat.log 10 N)).length + 3) := by
  rw [sciRat]
  simp only [Nat.add_sub_cancel]
  have he : ('e' :: ((if X + Nat.log 10 N < 0 then ['-'] else []) ++ Nat.toDigits 10 (X + Nat.log 10 N).natAbs) : List Char)
      = expText (X + Nat.log 10 N) := rfl
  rw [he]
  simp only [List.length_append]
  have h1 : (stripZeros ((Nat.toDigits 10 N).tail.take (sciRoom neg (X + Nat.log 10 N) k))).length ≤ sciRoom neg (X + Nat.log 10 N) k :=
    (stripZeros_length _).trans (List.length_take_le _ _)
  generalize stripZeros ((Nat.toDigits 10 N).tail.take (sciRoom neg (X + Nat.log 10 N) k)) = f at *
  have h2 : ((Nat.toDigits 10 N).take 1).length ≤ 1 := List.length_take_le _ _
  have h3 : (if neg then ['-'] else [] : List Char).length = if neg then 1 else 0 := by split <;> rfl
  have h4 : (if f = [] then ([] : List Char) else '.' :: f).length ≤ sciRoom neg (X + Nat.log 10 N) k + 1 := by
    split <;> simp; omega
  rw [h3]
  unfold sciRoom at *
  split <;> simp_all <;> omega

/-- scientific notation is short -/
theorem sciCut_short (neg : Prop) [Decidable neg] {N : Nat} {X : Int} (hN : N ≤ 1000010000) (hx : -2 ^ 31 < X + Nat.log 10 N ∧ X + Nat.log 10 N < 2 ^ 31)
    (c : Nat) : (sciCutRat neg N X c).length < 2 ^ 33 := by
  have h1 : (Nat.toDigits 10 N).length ≤ 10 := (Nat.length_toDigits_le_iff (by norm_num) (by norm_num)).2 (by omega)
  have h2 : (Nat.toDigits 10 (X + Nat.log 10 N).natAbs).length ≤ 10 := (Nat.length_toDigits_le_iff (by norm_num) (by norm_num)).2 (by omega)
  have h3 : ((stripZeros (Nat.toDigits 10 N).tail).take c).length ≤ 10 :=
    (List.length_take_le' _ _).trans ((stripZeros_length _).trans (by simp; omega))
  rw [sciCutRat]
  simp only [expText, List.length_append, List.length_cons]
  generalize (stripZeros (Nat.toDigits 10 N).tail).take c = f at *
  have h4 : (if f = [] then ([] : List Char) else '.' :: f).length ≤ 11 := by
    split <;> simp; omega
  have h5 : (if neg then ['-'] else [] : List Char).length ≤ 1 := by split <;> simp
  have h6 : (if X + Nat.log 10 N < 0 then ['-'] else [] : List Char).length ≤ 1 := by split <;> simp
  have h7 : ((Nat.toDigits 10 N).take 1).length ≤ 1 := List.length_take_le _ _
  omega

theorem sciRat_short (neg : Prop) [Decidable neg] {N : Nat} {X : Int} (hN : N ≤ 1000010000) (hx : -2 ^ 31 < X + Nat.log 10 N ∧ X + Nat.log 10 N < 2 ^ 31)
    (c : Nat) : (sciRat neg N X c).length < 2 ^ 33 := by
  have h1 : (Nat.toDigits 10 N).length ≤ 10 := (Nat.length_toDigits_le_iff (by norm_num) (by norm_num)).2 (by omega)
  have h2 : (Nat.toDigits 10 (X + Nat.log 10 N).natAbs).length ≤ 10 := (Nat.length_toDigits_le_iff (by norm_num) (by norm_num)).2 (by omega)
  have h3 : (stripZeros ((Nat.toDigits 10 N).tail.take (c - 1))).length ≤ 10 :=
    (stripZeros_length _).trans ((List.length_take_le' _ _).trans (by simp; omega))
  rw [sciRat]
  simp only [List.length_append, List.length_cons]
  generalize stripZeros ((Nat.toDigits 10 N).tail.take (c - 1)) = f at *
  have h4 : (if f = [] then ([] : List Char) else '.' :: f).length ≤ 11 := by
    split <;> simp; omega
  have h5 : (if neg then ['-'] else [] : List Char).length ≤ 1 := by split <;> simp
  have h6 : (if X + Nat.log 10 N < 0 then ['-'] else [] : List Char).length ≤ 1 := by split <;> simp
  have h7 : ((Nat.toDigits 10 N).take 1).length ≤ 1 := List.length_take_le _ _
  omega

theorem fixedRat_length (neg : Prop) [Decidable neg] (c : ℚ) {k : Nat}
    (h : (Nat.toDigits 10 ⌊c⌋₊).length + 1 + (if neg then 1 else 0) ≤ k) :
    (fixedRat neg c (k - ((Nat.toDigits 10 ⌊c⌋₊).length + 1 + (if neg then 1 else 0)))).length ≤ k := by
  rw [fixedRat]
  simp only [List.length_append]
  generalize hd : k - ((Nat.toDigits 10 ⌊c⌋₊).length + 1 + (if neg then 1 else 0)) = d
  have h1 : (stripZeros ((List.range d).map fun i => Nat.digitChar (decimalDigit c i))).length ≤ d :=
    (stripZeros_length _).trans (by simp)
  generalize stripZeros ((List.range d).map fun i => Nat.digitChar (decimalDigit c i)) = f at *
  have h3 : (if neg then ['-'] else [] : List Char).length = if neg then 1 else 0 := by split <;> rfl
  have h4 : (if f = [] then ([] : List Char) else '.' :: f).length ≤ d + 1 := by
    split <;> simp; omega
  omega

theorem digits_length {c : ℚ} {n : Nat} (hn : 0 < n) (h : c < 10 ^ n) : (Nat.toDigits 10 ⌊c⌋₊).length ≤ n := by
  refine (Nat.length_toDigits_le_iff (by norm_num) hn).2 ?_
  rw [Nat.floor_lt' (by positivity)]
  exact_mod_cast h

theorem lengths {x : Ratio} (hx : RValid x) : x = ofRat (rval x) ∧ (ofNat (rval x).num.natAbs).length = x.numer.mag.length ∧
    (ofNat (rval x).den).length = x.denom.mag.length := by
  have e := hx.eq_ofRat
  refine ⟨e, ?_, ?_⟩
  · conv_rhs => rw [e, numer_ofRat, BigI.mag_ofInt]
  · conv_rhs => rw [e, denom_ofRat, BigI.mag_ofInt, Int.natAbs_natCast]

theorem est_lt {c : ℚ} {A : Int} (h : EstRange c A) {n : Nat} (hn : 0 < n) (hc : c < 10 ^ n * (1 - 1 / 10 ^ 5)) : A < n := by
  by_contra hA
  have h1 := h.pos (by omega)
  have h2 := zpow_ten_le (not_lt.1 hA)
  rw [zpow_natCast] at h2
  have := mul_le_mul_of_nonneg_right h2 (show (0 : ℚ) ≤ 1 - 1 / 10 ^ 5 by norm_num)
  linarith

theorem est_gt {c : ℚ} {A : Int} (h : EstRange c A) {n : Nat} (hn : 0 < n) (hc : (1 + 1 / 10 ^ 5) / 10 ^ n ≤ c) : -(n : Int) < A := by
  by_contra hA
  have h1 := h.neg (by omega)
  have h2 := zpow_ten_le (not_lt.1 hA)
  rw [zpow_neg, zpow_natCast] at h2
  have := mul_le_mul_of_nonneg_right h2 (show (0 : ℚ) ≤ 1 + 1 / 10 ^ 5 by norm_num)
  rw [div_eq_mul_inv, mul_comm] at hc
  linarith

theorem est_ge {c : ℚ} {A : Int} (h : EstRange c A) (h9 : A ≤ 9990) {n : Nat} (hc : 10 ^ n * (1 + 1 / 10 ^ 5) ≤ c) : (n : Int) ≤ A := by
  by_contra hA
  rcases lt_or_ge A 0 with hA0 | hA0
  · have h1 := h.neg hA0
    have h2 := zpow_ten_le (show A ≤ n by omega)
    rw [zpow_natCast] at h2
    have := mul_le_mul_of_nonneg_right h2 (show (0 : ℚ) ≤ 1 + 1 / 10 ^ 5 by norm_num)
    linarith
  · have h1 := h.nonneg hA0 h9
    have h2 := zpow_ten_le (show A + 1 ≤ n by omega)
    rw [zpow_natCast] at h2
    have := mul_le_mul_of_nonneg_right h2 (show (0 : ℚ) ≤ 1 + 1 / 10 ^ 5 by norm_num)
    linarith

theorem est_le {c : ℚ} {A : Int} (h : EstRange c A) (h9 : -9990 ≤ A) {n : Nat} (hc : c ≤ (1 - 1 / 10 ^ 5) / 10 ^ n) : A ≤ -(n : Int) := by
  by_contra hA
  rw [div_eq_mul_inv, mul_comm] at hc
  rcases lt_or_ge 0 A with hA0 | hA0
  · have h1 := h.pos hA0
    have h2 := zpow_ten_le (show -(n : Int) + 1 ≤ A by omega)
    rw [zpow_add₀ (by norm_num), zpow_neg, zpow_natCast, zpow_one] at h2
    have := mul_le_mul_of_nonneg_right h2 (show (0 : ℚ) ≤ 1 - 1 / 10 ^ 5 by norm_num)
    have hp : (0 : ℚ) < (10 ^ n)⁻¹ := by positivity
    generalize ((10 : ℚ) ^ n)⁻¹ = P at *
    generalize (10 : ℚ) ^ A = Q at *
    norm_num at hc h1 this
    linarith
  · have h1 := h.nonpos hA0 h9
    have h2 := zpow_ten_le (show -(n : Int) ≤ A - 1 by omega)
    rw [zpow_neg, zpow_natCast] at h2
    have := mul_le_mul_of_nonneg_right h2 (show (0 : ℚ) ≤ 1 - 1 / 10 ^ 5 by norm_num)
    linarith

theorem ne_zero_of_ge {q : ℚ} {n : Nat} (h : (1 + 1 / 10 ^ 5) / 10 ^ n ≤ |q|) : q ≠ 0 := by
  rintro rfl
  have : (0 : ℚ) < (1 + 1 / 10 ^ 5) / 10 ^ n := by positivity
  simp at h
  linarith

/-- **C74, numbers near one.**  A number whose magnitude is between `10^-(K-2)` and `10^(K-2)`, where `K` is the asked for length but at
least six, is written in fixed notation: its digits, cut off where the place is used up and without trailing zeros.  The text takes not
more than `K` characters, and reading it gives the number rounded towards zero to the shown places. -/
theorem C74_fixed {x : Ratio} (hx : RValid x) (hn : x.numer.mag.length ≤ 2 ^ 27) (hd : x.denom.mag.length ≤ 2 ^ 27)
    {k K d : Nat} (hK : K = max k 6) (hK2 : K ≤ 2 ^ 32)
    (h1 : (1 + 1 / 10 ^ 5) / 10 ^ (K - 2) ≤ |rval x|) (h2 : |rval x| < 10 ^ (K - 2) * (1 - 1 / 10 ^ 5))
    (h3 : (1 + 1 / 10 ^ 5) / 10 ^ 9991 ≤ |rval x|) (h4 : |rval x| < 10 ^ 9991 * (1 - 1 / 10 ^ 5))
    (hD : d = K - ((Nat.toDigits 10 ⌊|rval x|⌋₊).length + 1 + (if rval x < 0 then 1 else 0))) :
    to_approx_string x k = pure (fixedRat (rval x < 0) |rval x| d) ∧ (fixedRat (rval x < 0) |rval x| d).length ≤ K ∧
      Parses (fixedRat (rval x < 0) |rval x| d) ((if rval x < 0 then -1 else 1) * (⌊|rval x| * 10 ^ d⌋₊ / 10 ^ d)) := by
  obtain ⟨ex, l1, l2⟩ := lengths hx
  rw [← l1] at hn
  rw [← l2] at hd
  generalize rval x = q at *
  subst ex
  obtain ⟨D, -, -, hr, ht⟩ := approx_cases (ne_zero_of_ge h3) hn hd
  replace ht := ht hK
  have a1 := est_lt hr (by omega) h2
  have a2 := est_gt hr (by omega) h1
  have a3 := est_lt hr (by norm_num) h4
  have a4 := est_gt hr (by norm_num) h3
  rw [if_neg (by push_cast at a3 a4; omega), if_neg (by omega), if_neg (by omega), fixedText_c hn, ← hD] at ht
  have hlen : (Nat.toDigits 10 ⌊|q|⌋₊).length ≤ K - 2 := digits_length (by omega) (by
    refine lt_of_lt_of_le h2 ?_
    have : (0 : ℚ) < 10 ^ (K - 2) := by positivity
    linarith)
  have hl := fixedRat_length (q < 0) |q| (k := K) (by split <;> omega)
  rw [← hD] at hl
  exact ⟨ht, hl, fixed_parses _ _ _ (by omega)⟩

theorem floor_of {N : Nat} {c : ℚ} {X : Int} (h1 : N * 10 ^ X ≤ c) (h2 : c < (N + 1) * 10 ^ X) : N = ⌊c / 10 ^ X⌋₊ := by
  have hp : (0 : ℚ) < 10 ^ X := by positivity
  symm
  rw [Nat.floor_eq_iff (div_nonneg (le_trans (by positivity) h1) hp.le), le_div_iff₀ hp, div_lt_iff₀ hp]
  exact ⟨h1, h2⟩

theorem sciCut_nine (neg : Prop) [Decidable neg] (X : Int) (c : Nat) : sciCutRat neg 1000000000 X c = sciCutRat neg 100000000 (X + 1) c := by
  have e1 : stripZeros (Nat.toDigits 10 1000000000).tail = [] := by decide +kernel
  have e2 : stripZeros (Nat.toDigits 10 100000000).tail = [] := by decide +kernel
  have e3 : (Nat.toDigits 10 1000000000).take 1 = (Nat.toDigits 10 100000000).take 1 := by decide +kernel
  have e4 : Nat.log 10 1000000000 = 9 := Nat.log_eq_of_pow_le_of_lt_pow (by norm_num) (by norm_num)
  have e5 : Nat.log 10 100000000 = 8 := Nat.log_eq_of_pow_le_of_lt_pow (by norm_num) (by norm_num)
  rw [sciCutRat, sciCutRat, e1, e2, e3, e4, e5]
  push_cast
  rw [add_assoc, show (1 : Int) + 8 = 9 from rfl]

/-- the branch for large numbers -/
theorem large_core {q : ℚ} {A : Int} {K : Nat} (hK6 : 6 ≤ K) (hr : EstRange |q| A) (h9 : A ≤ 9990) (a1 : ((K - 2 : Nat) : Int) ≤ A)
    {E : Int} (e1 : 10 ^ E ≤ |q|) (e2 : |q| < 10 ^ (E + 1)) {t : Str} {X : Int} (hX : X = max (E - 8) 0)
    (ht : t = sciCutRat (q < 0) ⌊|q| / 10 ^ X⌋₊ X (sciRoom (q < 0) E K)) :
    bigText (ofRat q) A (if q < 0 then ['-'] else []) K = pure t ∧ t.length ≤ max K ((expText E).length + 3) ∧
      ∃ v, Parses t ((if q < 0 then -1 else 1) * v) ∧ v ≤ |q| ∧ |q| < v + 10 ^ (E - (min (sciRoom (q < 0) E K) 8 : Nat)) := by
  obtain ⟨N, Y, n1, n2, n3, n4, n5, n6⟩ := bigText_c (q := q) (A := A) (by omega) (by omega) (hr.pos (by omega)) (q < 0) K
  replace n1 : (N : ℚ) * 10 ^ (Y : Int) ≤ |q| := by exact_mod_cast n1
  replace n2 : |q| < (N + 1 : ℚ) * 10 ^ (Y : Int) := by exact_mod_cast n2
  have hE := expo_eq (N := N) (by omega) n1 n2 e1 e2
  have hN9 : Nat.log 10 N ≤ 9 := Nat.lt_succ_iff.1 (Nat.log_lt_of_lt_pow (by omega) (by omega))
  have hE9 : E < 9992 := by
    have : (10 : ℚ) ^ E < 10 ^ (9992 : Int) := by
      refine lt_of_le_of_lt e1 (lt_of_lt_of_le (hr.nonneg (by omega) h9) ?_)
      have hm := zpow_ten_le (show A + 1 ≤ 9991 by omega)
      rw [show (9992 : Int) = 9991 + 1 by rfl, zpow_add₀ (by norm_num) 9991]
      obtain ⟨P, hP⟩ : ∃ P : ℚ, P = 10 ^ (9991 : Int) := ⟨_, rfl⟩
      have hP0 : 0 < P := by rw [hP]; positivity
      rw [← hP] at hm ⊢
      clear hP
      norm_num at hm ⊢
      linarith
    exact zpow_ten_lt this
  have htext : sciCutRat (q < 0) N Y (sciRoom (q < 0) E K) = t := by
    rw [ht]
    by_cases hN : N = 1000000000
    · have l9 : Nat.log 10 N = 9 := Nat.log_eq_of_pow_le_of_lt_pow (by omega) (by omega)
      have hXY : X = Y + 1 := by omega
      rw [hN, sciCut_nine, ← hXY]
      congr 1
      refine floor_of ?_ ?_
      · refine le_trans (le_of_eq ?_) n1
        rw [hN, hXY, zpow_add₀ (by norm_num)]
        push_cast
        ring
      · refine lt_of_lt_of_le n2 ?_
        have hp : (0 : ℚ) < 10 ^ (Y : Int) := by positivity
        rw [hN, hXY, zpow_add₀ (by norm_num), mul_comm ((10 : ℚ) ^ (Y : Int)), ← mul_assoc]
        refine mul_le_mul_of_nonneg_right ?_ hp.le
        norm_num
    · have hXY : X = Y := by
        have l8 : Nat.log 10 N ≤ 8 := Nat.lt_succ_iff.1 (Nat.log_lt_of_lt_pow (by omega) (by omega))
        rcases n5 with n5 | ⟨n5, -⟩
        · have := Nat.le_log_of_pow_le (b := 10) (x := 8) (y := N) (by norm_num) (by omega)
          omega
        · omega
      rw [hXY, ← floor_of n1 n2]
  have hlen := sciCut_length (q < 0) N Y K
  rw [hE] at n6 hlen
  obtain ⟨v, v1, v2, v3⟩ := sciCut_parses (q < 0) (N := N) (by omega) n1 n2 (sciRoom (q < 0) E K) (by omega)
    (sciCut_short _ (by omega) (by omega) _)
  rw [htext] at n6 hlen v1
  refine ⟨n6, hlen, v, v1, v2, lt_of_lt_of_le v3 ?_⟩
  rw [hE]
  refine add_le_add_right (zpow_ten_le ?_) _
  have hroom : sciRoom (q < 0) E K ≤ max (K - 4) 1 := by
    unfold sciRoom
    have : 2 ≤ (expText E).length := by
      have := Nat.length_toDigits_pos (b := 10) (n := E.natAbs)
      rw [expText, List.length_cons, List.length_append]
      omega
    omega
  have hlog : 8 ≤ Nat.log 10 N ∨ sciRoom (q < 0) E K ≤ Nat.log 10 N := by
    rcases n5 with n5 | ⟨-, n5⟩
    · exact .inl (Nat.le_log_of_pow_le (by norm_num) (by omega))
    · right
      have : K - 3 ≤ Nat.log 10 N := by
        refine Nat.le_log_of_pow_le (by norm_num) ?_
        have g1 := zpow_ten_le a1
        rw [zpow_natCast, show K - 2 = (K - 3) + 1 by omega, pow_succ] at g1
        have g2 : (10 : ℚ) ^ (K - 3) < N := by
          have g3 := mul_le_mul_of_nonneg_right g1 (show (0 : ℚ) ≤ 1 - 1 / 10 ^ 5 by norm_num)
          have g4 : (1 : ℚ) ≤ 10 ^ (K - 3) := one_le_pow₀ (by norm_num)
          generalize (10 : ℚ) ^ (K - 3) = P at *
          generalize (10 : ℚ) ^ A = Q at *
          norm_num at g3 n5
          linarith
        have g3 : 10 ^ (K - 3) < N := by exact_mod_cast g2
        exact g3.le
      omega
  omega

/-- **C74, large numbers.**  A number of a magnitude from `10^(K-2)` on is written in scientific notation: the first nine digits, or
those in front of the point if they are less than nine, without trailing zeros and then cut off where the place is used up.  The text
takes not more than `K` characters, or three more than the exponent if that is more.  The value of the text is the number rounded towards
zero, and differs by less than a unit of the last place there is room for, but at most eight behind the point. -/
theorem C74_large {x : Ratio} (hx : RValid x) (hn : x.numer.mag.length ≤ 2 ^ 27) (hd : x.denom.mag.length ≤ 2 ^ 27)
    {k K : Nat} (hK : K = max k 6) (h1 : 10 ^ (K - 2) * (1 + 1 / 10 ^ 5) ≤ |rval x|) (h2 : |rval x| < 10 ^ 9991 * (1 - 1 / 10 ^ 5))
    {E : Int} (e1 : 10 ^ E ≤ |rval x|) (e2 : |rval x| < 10 ^ (E + 1)) {t : Str} {X : Int} (hX : X = max (E - 8) 0)
    (ht : t = sciCutRat (rval x < 0) ⌊|rval x| / 10 ^ X⌋₊ X (sciRoom (rval x < 0) E K)) :
    to_approx_string x k = pure t ∧ t.length ≤ max K ((expText E).length + 3) ∧
      ∃ v, Parses t ((if rval x < 0 then -1 else 1) * v) ∧ v ≤ |rval x| ∧
        |rval x| < v + 10 ^ (E - (min (sciRoom (rval x < 0) E K) 8 : Nat)) := by
  obtain ⟨ex, l1, l2⟩ := lengths hx
  rw [← l1] at hn
  rw [← l2] at hd
  generalize rval x = q at *
  subst ex
  have h0 : q ≠ 0 := by
    rintro rfl
    have : (0 : ℚ) < 10 ^ (K - 2) * (1 + 1 / 10 ^ 5) := by positivity
    rw [abs_zero] at h1
    linarith
  obtain ⟨D, -, -, hr, ht'⟩ := approx_cases h0 hn hd
  replace ht' := ht' hK
  have a3 := est_lt hr (by norm_num) h2
  push_cast at a3
  have a1 := est_ge hr (by omega) h1
  rw [if_neg (by omega), if_pos (by omega)] at ht'
  obtain ⟨b1, b2⟩ := large_core (by omega) hr (by omega) a1 e1 e2 hX ht
  exact ⟨ht'.trans b1, b2⟩

/-- the branch for small numbers -/
theorem small_core {q : ℚ} (hd : (ofNat q.den).length ≤ 2 ^ 27) {A : Int} {K : Nat} (hr : EstRange |q| A) (a3 : -9990 ≤ A) (a1 : A ≤ -4)
    {E : Int} (e1 : 10 ^ E ≤ |q|) (e2 : |q| < 10 ^ (E + 1)) {p : Nat} (hp : p = 7 ∧ A < -6 ∨ p = 2 ∧ 1 / 10 ^ 7 ≤ |q| ∨ p = 1) :
    ∃ (t : Str) (v : ℚ), smallText (ofRat q) A (if q < 0 then ['-'] else []) K = pure t ∧
      (∃ (N : Nat) (X : Int), 0 < N ∧ N * 10 ^ X ≤ |q| ∧ |q| < (N + 1) * 10 ^ X ∧ t = sciRat (q < 0) N X (sciRoom (q < 0) E K + 1)) ∧
      t.length ≤ max K ((expText E).length + 3) ∧
      Parses t ((if q < 0 then -1 else 1) * v) ∧ v ≤ |q| ∧ |q| < v + 10 ^ (E - (min (sciRoom (q < 0) E K) p : Nat)) := by
  obtain ⟨N, n1, n2, n3, n4, n5⟩ := smallText_c hd (A := A) (by omega) (by omega) (hr.neg (by omega)) (hr.nonpos (by omega) (by omega)) (q < 0) K
  have hN0 : 99 ≤ N := by split_ifs at n4 <;> omega
  have hE := expo_eq (N := N) (by omega) n1 n2 e1 e2
  have hN9 : Nat.log 10 N ≤ 9 := Nat.lt_succ_iff.1 (Nat.log_lt_of_lt_pow (by omega) (by omega))
  have hsm : -9999 ≤ smallExp (A) - 9 ∧ smallExp (A) - 9 ≤ 0 := by unfold smallExp; split <;> omega
  have hlen := sciRat_length (q < 0) N (smallExp (A) - 9) K
  rw [hE] at n5 hlen
  obtain ⟨v, v1, v2, v3⟩ := sciRat_parses (q < 0) (by omega) n1 n2 (sciRoom (q < 0) E K) (by omega)
    (sciRat_short _ (by omega) (by omega) _)
  refine ⟨_, v, n5, ⟨N, _, by omega, n1, n2, rfl⟩, hlen, v1, v2, lt_of_lt_of_le v3 ?_⟩
  rw [hE]
  refine add_le_add_right (zpow_ten_le ?_) _
  have hlog : p ≤ Nat.log 10 N := by
    rcases hp with ⟨rfl, hp⟩ | ⟨rfl, hp⟩ | rfl
    · rw [if_pos hp] at n4
      exact Nat.le_log_of_pow_le (b := 10) (x := 7) (by norm_num) (by omega)
    · refine Nat.le_log_of_pow_le (by norm_num) ?_
      by_cases hA : A < -6
      · rw [if_pos hA] at n4
        omega
      have e0 : smallExp A = 0 := by unfold smallExp; rw [if_neg hA]
      rw [e0] at n2
      have g : (100 : ℚ) < N + 1 := by
        norm_num at n2 hp ⊢
        linarith
      have : 100 < N + 1 := by exact_mod_cast g
      omega
    · exact Nat.le_log_of_pow_le (b := 10) (x := 1) (by norm_num) (by omega)
  omega

/-- **C74, small numbers.**  A number of a magnitude below `10^-(K-2)` is written in scientific notation: some of its digits, cut off
where the place is used up and without trailing zeros.  The text takes not more than `K` characters, or three more than the exponent if
that is more.  The value of the text is the number rounded towards zero, and differs by less than a unit of the last place there is room
for, but at most the seventh behind the point; only the second from `10^-7` on. -/
theorem C74_small {x : Ratio} (hx : RValid x) (hn : x.numer.mag.length ≤ 2 ^ 27) (hd : x.denom.mag.length ≤ 2 ^ 27)
    {k K : Nat} (hK : K = max k 6) (h1 : (1 + 1 / 10 ^ 5) / 10 ^ 9991 ≤ |rval x|) (h2 : |rval x| ≤ (1 - 1 / 10 ^ 5) / 10 ^ (K - 2))
    {E : Int} (e1 : 10 ^ E ≤ |rval x|) (e2 : |rval x| < 10 ^ (E + 1))
    {p : Nat} (hp : p = 7 ∧ |rval x| ≤ (1 - 1 / 10 ^ 5) / 10 ^ 7 ∨ p = 2 ∧ 1 / 10 ^ 7 ≤ |rval x|) :
    ∃ (t : Str) (v : ℚ), to_approx_string x k = pure t ∧
      (∃ (N : Nat) (X : Int), 0 < N ∧ N * 10 ^ X ≤ |rval x| ∧ |rval x| < (N + 1) * 10 ^ X ∧
        t = sciRat (rval x < 0) N X (sciRoom (rval x < 0) E K + 1)) ∧
      t.length ≤ max K ((expText E).length + 3) ∧
      Parses t ((if rval x < 0 then -1 else 1) * v) ∧ v ≤ |rval x| ∧ |rval x| < v + 10 ^ (E - (min (sciRoom (rval x < 0) E K) p : Nat)) := by
  obtain ⟨ex, l1, l2⟩ := lengths hx
  rw [← l1] at hn
  rw [← l2] at hd
  generalize rval x = q at *
  subst ex
  obtain ⟨D, -, -, hr, ht⟩ := approx_cases (ne_zero_of_ge h1) hn hd
  replace ht := ht hK
  have a3 := est_gt hr (by norm_num) h1
  push_cast at a3
  have a1 := est_le hr (by omega) h2
  rw [if_neg (by omega), if_neg (by omega), if_pos (by omega)] at ht
  obtain ⟨t, v, b1, b2⟩ := small_core (K := K) hd hr (by omega) (by omega) e1 e2 (p := p) (by
    rcases hp with ⟨rfl, hp⟩ | hp
    · have := est_le hr (by omega) hp
      push_cast at this
      exact .inl ⟨rfl, by omega⟩
    · exact .inr (.inl hp))
  exact ⟨t, v, ht.trans b1, b2⟩

/-- **C74, the digits of small numbers.**  The digits are the first nine ones, or down to `10^-9` from `10^-7` on.  (The statement leaves
out the numbers next to a power of ten, where it may be one digit more or less.) -/
theorem C74_small_text {x : Ratio} (hx : RValid x) (hn : x.numer.mag.length ≤ 2 ^ 27) (hd : x.denom.mag.length ≤ 2 ^ 27)
    {k K : Nat} (hK : K = max k 6) (h1 : (1 + 1 / 10 ^ 5) / 10 ^ 9991 ≤ |rval x|) (h2 : |rval x| ≤ (1 - 1 / 10 ^ 5) / 10 ^ (K - 2))
    {E : Nat} (e1 : (1 + 1 / 10 ^ 5) / 10 ^ E ≤ |rval x|) (e2 : |rval x| ≤ (1 - 1 / 10 ^ 5) / 10 ^ (E - 1))
    {X : Int} (hX : X = if E ≤ 7 then -9 else -(E : Int) - 8) :
    to_approx_string x k = pure (sciRat (rval x < 0) ⌊|rval x| / 10 ^ X⌋₊ X (sciRoom (rval x < 0) (-E) K + 1)) := by
  obtain ⟨ex, l1, l2⟩ := lengths hx
  rw [← l1] at hn
  rw [← l2] at hd
  generalize rval x = q at *
  subst ex
  have h0 := ne_zero_of_ge h1
  obtain ⟨D, -, -, hr, ht⟩ := approx_cases h0 hn hd
  replace ht := ht hK
  have a3 := est_gt hr (by norm_num) h1
  push_cast at a3
  have a1 := est_le hr (by omega) h2
  have hE0 : 0 < E := by
    by_contra hE
    have : E = 0 := by omega
    subst this
    norm_num at e1 e2
    linarith
  have a4 := est_gt hr hE0 e1
  have a5 := est_le hr (by omega) e2
  have hA : est10 D = -(E : Int) + 1 := by omega
  have hsE : smallExp (est10 D) - 9 = X := by
    unfold smallExp
    rw [hX, hA]
    split <;> split <;> omega
  rw [if_neg (by omega), if_neg (by omega), if_pos (by omega)] at ht
  obtain ⟨N, n1, n2, n3, n4, n5⟩ := smallText_c hd (A := est10 D) (by omega) (by omega) (hr.neg (by omega)) (hr.nonpos (by omega) (by omega)) (q < 0) K
  have hN0 : 99 ≤ N := by split_ifs at n4 <;> omega
  have u1 : (10 : ℚ) ^ (-(E : Int)) ≤ |q| := by
    refine le_trans ?_ e1
    rw [zpow_neg, zpow_natCast, div_eq_mul_inv]
    have : (0 : ℚ) < (10 ^ E)⁻¹ := by positivity
    linarith
  have u2 : |q| < (10 : ℚ) ^ (-(E : Int) + 1) := by
    refine lt_of_le_of_lt e2 ?_
    rw [show -(E : Int) + 1 = -((E - 1 : Nat) : Int) by omega, zpow_neg, zpow_natCast, div_eq_mul_inv]
    have : (0 : ℚ) < (10 ^ (E - 1))⁻¹ := by positivity
    linarith
  have hE := expo_eq (N := N) (by omega) n1 n2 u1 u2
  rw [hE] at n5
  rw [ht, n5, hsE, ← floor_of (hsE ▸ n1) (hsE ▸ n2)]

/-- **C74, huge and tiny numbers.**  A number of a magnitude from `10^9991` on or up to `10^-9991` is written with four digits, whatever
length is asked for.  The value of the text differs by a factor whose logarithm is at most `1/1000` and `2/10^10` of the logarithm of the number. -/
theorem C74_huge {x : Ratio} (hx : RValid x) (h0 : rval x ≠ 0) (hn : x.numer.mag.length ≤ 2 ^ 27) (hd : x.denom.mag.length ≤ 2 ^ 27)
    (h1 : 10 ^ 9991 * (1 + 1 / 10 ^ 5) ≤ |rval x| ∨ |rval x| ≤ (1 - 1 / 10 ^ 5) / 10 ^ 9991) :
    ∃ (t : Str) (v : ℚ), (∀ k, to_approx_string x k = pure t) ∧ Parses t ((if rval x < 0 then -1 else 1) * v) ∧ 0 < v ∧
      |Real.log v - Real.log (|rval x| : ℚ)| ≤ 1 / 1000 + 2 / 10 ^ 10 * |Real.log (|rval x| : ℚ)| := by
  obtain ⟨ex, l1, l2⟩ := lengths hx
  rw [← l1] at hn
  rw [← l2] at hd
  generalize rval x = q at *
  subst ex
  obtain ⟨D, d1, d2, hr, ht⟩ := approx_cases h0 hn hd
  have hA : (est10 D).natAbs > 9990 := by
    by_contra hA
    rcases h1 with h1 | h1
    · have := est_ge hr (by omega) h1
      push_cast at this
      omega
    · have := est_le hr (by omega) h1
      push_cast at this
      omega
  obtain ⟨t, v, t1, t2, t3, -, t4⟩ := huge_c (q := q) (by intro h; rw [h] at hA; omega) d1 d2 (q < 0)
  refine ⟨t, v, ?_, t2, t3, t4⟩
  intro k
  rw [ht rfl, if_pos hA, t1]

/-- **C74, zero.**  Zero is written as `0`. -/
theorem C74_zero (k : Nat) : to_approx_string Ratio.zero k = pure ['0'] := by
  have hl0 : BigI.log2_accurate (ofInt 0) = pure (ofInt 0) := by
    rw [BigI.log2_accurate, show (ofInt 0).mag = [0] by rw [BigI.mag_ofInt]; exact ofNat_zero, UBig.log2_accurate_zero, pure_bind, ← ofNat_zero,
      BigI.from_ubi_c (z := 0) (by simp) (by simp)]
  have hl1 : BigI.log2_accurate (ofInt 1) = pure (ofInt 0) := by
    obtain ⟨T, hT⟩ : ∃ T : Nat, T = 2 ^ 32 := ⟨_, rfl⟩
    obtain ⟨r, r1, -, r2, -⟩ := bi_log2_c hT 1 (by norm_num) (one_lt_pow₀ (by norm_num) (by omega))
    rw [show (1 : Int).natAbs = 1 from rfl, one_pow] at r2
    have : r = 0 := by
      by_contra hr
      have := Nat.one_lt_two_pow hr
      omega
    rw [r1, this]; rfl
  have e1 : approxLog2 (ofRat 0) = pure (ofInt 0) := by
    rw [approxLog2, numer_ofRat, denom_ofRat]
    have n0 : (0 : ℚ).num = 0 := rfl
    have n1 : (((0 : ℚ).den : Nat) : Int) = 1 := rfl
    rw [n0, n1, hl0, pure_bind, hl1, pure_bind, BigI.sub_c]
    rfl
  have e2 : approxLog10 (ofInt 0) = pure 0 := by
    rw [approxLog10, BigI.mul_i32_c (by unfold IsI32; omega) (by omega), pure_bind,
      BigI.div_i32_c (by unfold IsI32; omega) (by omega) (by omega), pure_bind, BigI.shift_right_c, BigI.to_i64_c]
    simp
  rw [zero_c, to_approx_string, e1, pure_bind, e2, pure_bind, if_neg (by omega), if_neg (by omega), if_neg (by omega)]
  have hs : (if is_neg (ofRat 0) = true then ['-'] else [] : Str) = if False then ['-'] else [] := by
    rw [is_neg_c]; simp
  have h1 : (ofNat (0 : ℚ).num.natAbs).length ≤ 2 ^ 27 := by
    refine le_trans ((length_ofNat_le_iff (k := 1) (by norm_num)).2 ?_) (by norm_num)
    simp
  rw [hs, fixedText_c h1]
  generalize max k 6 - ((Nat.toDigits 10 ⌊|(0 : ℚ)|⌋₊).length + 1 + (if False then 1 else 0)) = d
  have h2 : stripZeros ((List.range d).map fun i => Nat.digitChar (decimalDigit |0| i)) = [] := by
    have : (List.range d).map (fun i => Nat.digitChar (decimalDigit |0| i)) = List.replicate d '0' := by
      rw [List.eq_replicate_iff]
      refine ⟨by simp, ?_⟩
      intro c hc
      obtain ⟨i, -, rfl⟩ := List.mem_map.1 hc
      simp [decimalDigit]
    rw [this, stripZeros, List.reverse_replicate]
    simp
  rw [fixedRat, h2]
  simp

/-- **C74, all numbers.**  The function returns a text for every number, without panic. -/
theorem C74_returns {x : Ratio} (hx : RValid x) (hn : x.numer.mag.length ≤ 2 ^ 27) (hd : x.denom.mag.length ≤ 2 ^ 27) (k : Nat) :
    ∃ t, to_approx_string x k = pure t := by
  by_cases h0 : rval x = 0
  · refine ⟨['0'], ?_⟩
    have : x = Ratio.zero := by rw [hx.eq_ofRat, h0, zero_c]
    rw [this, C74_zero]
  obtain ⟨ex, l1, l2⟩ := lengths hx
  rw [← l1] at hn
  rw [← l2] at hd
  generalize rval x = q at *
  subst ex
  obtain ⟨D, d1, d2, hr, ht⟩ := approx_cases h0 hn hd
  rw [ht rfl]
  by_cases c1 : (est10 D).natAbs > 9990
  · obtain ⟨t, -, h, -⟩ := huge_c (q := q) (by intro h; rw [h] at c1; omega) d1 d2 (q < 0)
    exact ⟨t, by rw [if_pos c1, h]⟩
  rw [if_neg c1]
  by_cases c2 : est10 D > ((max k 6 : Nat) : Int) - 3
  · obtain ⟨N, X, -, -, -, -, -, h⟩ := bigText_c (q := q) (A := est10 D) (by omega) (by omega) (hr.pos (by omega)) (q < 0) (max k 6)
    exact ⟨_, by rw [if_pos c2, h]⟩
  rw [if_neg c2]
  by_cases c3 : est10 D < -(((max k 6 : Nat) : Int) - 3)
  · obtain ⟨N, -, -, -, -, h⟩ := smallText_c hd (A := est10 D) (by omega) (by omega) (hr.neg (by omega)) (hr.nonpos (by omega) (by omega)) (q < 0) (max k 6)
    exact ⟨_, by rw [if_pos c3, h]⟩
  rw [if_neg c3]
  exact ⟨_, fixedText_c hn (q < 0) (max k 6)⟩

example : ∃ t, to_approx_string ⟨⟨[7], false⟩, ⟨[22], true⟩⟩ 0 = pure t := C74_returns (by decide) (by norm_num) (by norm_num) 0

/-- **C74, every number.**  For every number that is not zero and every length `K` from six on the text is of one of three kinds.
Huge and tiny numbers: four digits.  Large and small numbers: scientific notation that takes not more than `K` characters, or three more
than the exponent, and whose value is the number rounded towards zero; the error is less than a unit of the last place there is room for,
but at most the seventh (if `K` is below ten: the first) behind the point.  Numbers between: fixed notation.  Next to the limits, within a
factor `1 ± 10^-5`, it may be one or the other. -/
theorem C74_all {x : Ratio} (hx : RValid x) (h0 : rval x ≠ 0) (hn : x.numer.mag.length ≤ 2 ^ 27) (hd : x.denom.mag.length ≤ 2 ^ 27)
    {k K d : Nat} (hK : K = max k 6) (hK2 : K ≤ 2 ^ 32) {E : Int} (e1 : 10 ^ E ≤ |rval x|) (e2 : |rval x| < 10 ^ (E + 1))
    (hD : d = K - ((Nat.toDigits 10 ⌊|rval x|⌋₊).length + 1 + (if rval x < 0 then 1 else 0))) :
    ∃ (t : Str) (v : ℚ), to_approx_string x k = pure t ∧ Parses t ((if rval x < 0 then -1 else 1) * v) ∧
      ((10 ^ 9991 * (1 - 1 / 10 ^ 5) ≤ |rval x| ∨ |rval x| < (1 + 1 / 10 ^ 5) / 10 ^ 9991) ∧ 0 < v ∧
          |Real.log v - Real.log (|rval x| : ℚ)| ≤ 1 / 1000 + 2 / 10 ^ 10 * |Real.log (|rval x| : ℚ)| ∨
        (10 ^ (K - 2) * (1 - 1 / 10 ^ 5) ≤ |rval x| ∨ |rval x| < (1 + 1 / 10 ^ 5) / 10 ^ (K - 2)) ∧
          t.length ≤ max K ((expText E).length + 3) ∧ v ≤ |rval x| ∧
          |rval x| < v + 10 ^ (E - (min (sciRoom (rval x < 0) E K) (if 10 ≤ K then 7 else 1) : Nat)) ∨
        (1 - 1 / 10 ^ 5) / 10 ^ (K - 2) < |rval x| ∧ |rval x| < 10 ^ (K - 2) * (1 + 1 / 10 ^ 5) ∧
          t = fixedRat (rval x < 0) |rval x| d ∧ t.length ≤ K ∧ v = ⌊|rval x| * 10 ^ d⌋₊ / 10 ^ d) := by
  obtain ⟨ex, l1, l2⟩ := lengths hx
  rw [← l1] at hn
  rw [← l2] at hd
  generalize rval x = q at *
  subst ex
  obtain ⟨D, d1, d2, hr, ht⟩ := approx_cases h0 hn hd
  replace ht := ht hK
  have hinv : ∀ n : Nat, (10 : ℚ) ^ (-(n : Int)) * (1 + 1 / 10 ^ 5) = (1 + 1 / 10 ^ 5) / 10 ^ n := by
    intro n; rw [zpow_neg, zpow_natCast, mul_comm, ← div_eq_mul_inv]
  have hinv' : ∀ n : Nat, (10 : ℚ) ^ (-(n : Int)) * (1 - 1 / 10 ^ 5) = (1 - 1 / 10 ^ 5) / 10 ^ n := by
    intro n; rw [zpow_neg, zpow_natCast, mul_comm, ← div_eq_mul_inv]
  have lo : ∀ n : Nat, 0 < n → (n : Int) ≤ est10 D → 10 ^ n * (1 - 1 / 10 ^ 5) ≤ |q| := by
    intro n hn0 h
    refine le_trans (mul_le_mul_of_nonneg_right ?_ (by norm_num)) (hr.pos (by omega))
    rw [← zpow_natCast]
    exact zpow_ten_le h
  have hi : ∀ n : Nat, 0 < n → est10 D ≤ -(n : Int) → |q| < (1 + 1 / 10 ^ 5) / 10 ^ n := by
    intro n hn0 h
    rw [← hinv]
    exact lt_of_lt_of_le (hr.neg (by omega)) (mul_le_mul_of_nonneg_right (zpow_ten_le h) (by norm_num))
  by_cases c1 : (est10 D).natAbs > 9990
  · obtain ⟨t, v, t1, t2, t3, -, t4⟩ := huge_c (q := q) (by intro h; rw [h] at c1; omega) d1 d2 (q < 0)
    rw [if_pos c1, t1] at ht
    refine ⟨t, v, ht, t2, .inl ⟨?_, t3, t4⟩⟩
    rcases lt_or_ge (est10 D) 0 with h | h
    · exact .inr (hi 9991 (by norm_num) (by push_cast; omega))
    · exact .inl (lo 9991 (by norm_num) (by push_cast; omega))
  rw [if_neg c1] at ht
  have hp : (if 10 ≤ K then 7 else 1) ≤ 8 := by split <;> omega
  by_cases c2 : est10 D > (K : Int) - 3
  · obtain ⟨b1, b2, v, b3, b4, b5⟩ := large_core (K := K) (by omega) hr (by omega) (by omega) e1 e2 rfl rfl
    rw [if_pos c2, b1] at ht
    refine ⟨_, v, ht, b3, .inr (.inl ⟨.inl (lo (K - 2) (by omega) (by omega)), b2, b4, lt_of_lt_of_le b5 ?_⟩)⟩
    exact add_le_add_right (zpow_ten_le (by omega)) _
  rw [if_neg c2] at ht
  by_cases c3 : est10 D < -((K : Int) - 3)
  · obtain ⟨t, v, b1, -, b2, b3, b4, b5⟩ := small_core (K := K) hd hr (by omega) (by omega) e1 e2 (p := if 10 ≤ K then 7 else 1) (by
      split
      · exact .inl ⟨rfl, by omega⟩
      · exact .inr (.inr rfl))
    rw [if_pos c3, b1] at ht
    exact ⟨t, v, ht, b3, .inr (.inl ⟨.inr (hi (K - 2) (by omega) (by omega)), b2, b4, b5⟩)⟩
  rw [if_neg c3, fixedText_c hn, ← hD] at ht
  have u1 : |q| < 10 ^ (K - 2) * (1 + 1 / 10 ^ 5) := by
    rcases lt_or_ge (est10 D) 0 with h | h
    · refine lt_of_lt_of_le (hr.neg h) (mul_le_mul_of_nonneg_right ?_ (by norm_num))
      rw [← zpow_natCast]
      exact zpow_ten_le (by omega)
    · refine lt_of_lt_of_le (hr.nonneg h (by omega)) (mul_le_mul_of_nonneg_right ?_ (by norm_num))
      rw [← zpow_natCast]
      exact zpow_ten_le (by omega)
  have u2 : (1 - 1 / 10 ^ 5) / 10 ^ (K - 2) < |q| := by
    rw [← hinv']
    rcases lt_or_ge 0 (est10 D) with h | h
    · refine lt_of_lt_of_le ?_ (hr.pos h)
      exact mul_lt_mul_of_pos_right (zpow_lt_zpow_right₀ (by norm_num) (by omega)) (by norm_num)
    · refine lt_of_le_of_lt ?_ (hr.nonpos h (by omega))
      exact mul_le_mul_of_nonneg_right (zpow_ten_le (by omega)) (by norm_num)
  have hlen : (Nat.toDigits 10 ⌊|q|⌋₊).length ≤ K - 1 := digits_length (by omega) (by
    refine lt_of_lt_of_le u1 ?_
    rw [show K - 1 = (K - 2) + 1 by omega, pow_succ (10 : ℚ) (K - 2)]
    have h10 : (0 : ℚ) < 10 ^ (K - 2) := by positivity
    linarith)
  have hl : (fixedRat (q < 0) |q| d).length ≤ K := by
    rcases Nat.lt_or_ge K ((Nat.toDigits 10 ⌊|q|⌋₊).length + 1 + (if q < 0 then 1 else 0)) with h | h
    · have hd0 : d = 0 := by omega
      rw [hd0, fixedRat]
      have h3 : (if q < 0 then ['-'] else [] : List Char).length = if q < 0 then 1 else 0 := by split <;> rfl
      simp only [List.range_zero, List.map_nil, List.length_append, h3]
      have h4 : (stripZeros [] : List Char) = [] := rfl
      rw [h4, if_pos rfl, List.length_nil]
      have : (if q < 0 then 1 else 0 : Nat) ≤ 1 := by split <;> omega
      omega
    · have := fixedRat_length (q < 0) |q| (k := K) h
      rwa [← hD] at this
  exact ⟨_, _, ht, fixed_parses _ _ _ (by omega), .inr (.inr ⟨u2, u1, rfl, hl, rfl⟩)⟩

/-! ## examples -/

theorem valid_of (q : ℚ) {n d : Int} (hn : q.num = n) (hd : (q.den : Int) = d) (h1 : n.natAbs < 4294967296 ^ 2000) (h2 : d.natAbs < 4294967296 ^ 2000) :
    RValid (ofRat q) ∧ (ofRat q).numer.mag.length ≤ 2 ^ 27 ∧ (ofRat q).denom.mag.length ≤ 2 ^ 27 ∧ rval (ofRat q) = q := by
  refine ⟨rvalid_ofRat q, ?_, ?_, rval_ofRat q⟩
  · rw [numer_ofRat, BigI.mag_ofInt, hn]
    exact le_trans ((length_ofNat_le_iff (by norm_num)).2 h1) (by norm_num)
  · rw [denom_ofRat, BigI.mag_ofInt, hd]
    exact le_trans ((length_ofNat_le_iff (by norm_num)).2 h2) (by norm_num)

theorem fixed_example (q : ℚ) {n d : Int} (hn : q.num = n) (hd : (q.den : Int) = d) (h1 : n.natAbs < 4294967296 ^ 2000)
    (h2 : d.natAbs < 4294967296 ^ 2000) {k K e : Nat} (hK : K = max k 6) (hK2 : K ≤ 100)
    (c1 : (1 + 1 / 10 ^ 5) / 10 ^ (K - 2) ≤ |q|) (c2 : |q| < 10 ^ (K - 2) * (1 - 1 / 10 ^ 5))
    (he : e = K - ((Nat.toDigits 10 ⌊|q|⌋₊).length + 1 + (if q < 0 then 1 else 0))) :
    to_approx_string (ofRat q) k = pure (fixedRat (q < 0) |q| e) := by
  obtain ⟨v1, v2, v3, v4⟩ := valid_of q hn hd h1 h2
  have := (C74_fixed v1 v2 v3 (k := k) (K := K) (d := e) hK (by omega) (by rw [v4]; exact c1) (by rw [v4]; exact c2)
    (by
      rw [v4]
      refine le_trans (div_le_div_of_nonneg_left (by norm_num) (by positivity) (pow_le_pow_right₀ (by norm_num) (by omega))) c1)
    (by
      rw [v4]
      refine lt_of_lt_of_le c2 (mul_le_mul_of_nonneg_right (pow_le_pow_right₀ (by norm_num) (by omega)) (by norm_num)))
    (by rw [v4]; exact he)).1
  rw [v4] at this
  exact this

example : to_approx_string (ofRat (-22 / 7)) 10 = pure "-3.1428571".toList :=
  (fixed_example (-22 / 7) (n := -22) (d := 7) (K := 10) (e := 7) (by norm_num) (by norm_num) (by decide +kernel) (by decide +kernel)
    (by norm_num) (by norm_num) (by norm_num) (by norm_num) (by decide +kernel)).trans (congrArg pure (by decide +kernel))

example : to_approx_string (ofRat (10 ^ 20 * 22 / 7)) 10 = pure "3.14285e20".toList := by
  obtain ⟨v1, v2, v3, v4⟩ := valid_of (10 ^ 20 * 22 / 7) (n := 2200000000000000000000) (d := 7) (by decide +kernel) (by decide +kernel)
    (by decide +kernel) (by decide +kernel)
  refine (C74_large v1 v2 v3 (k := 10) (K := 10) (E := 20) (X := 12) (by norm_num) (by rw [v4]; decide +kernel) (by rw [v4]; decide +kernel)
    (by rw [v4]; decide +kernel) (by rw [v4]; decide +kernel) (by norm_num) rfl).1.trans ?_
  rw [v4]
  exact congrArg pure (by decide +kernel)

example : to_approx_string (ofRat (-22 / (7 * 10 ^ 20))) 10 = pure "-3.142e-20".toList := by
  obtain ⟨v1, v2, v3, v4⟩ := valid_of (-22 / (7 * 10 ^ 20)) (n := -11) (d := 350000000000000000000) (by decide +kernel) (by decide +kernel)
    (by decide +kernel) (by decide +kernel)
  refine (C74_small_text v1 v2 v3 (k := 10) (K := 10) (E := 20) (X := -28) (by norm_num) (by rw [v4]; decide +kernel) (by rw [v4]; decide +kernel)
    (by rw [v4]; decide +kernel) (by rw [v4]; decide +kernel) (by norm_num)).trans ?_
  rw [v4]
  exact congrArg pure (by decide +kernel)

/-- `10^10`, a limit of fixed notation in twelve characters: it is shown exactly or with an error below `1000` -/
example : ∃ (t : Str) (v : ℚ), to_approx_string (ofRat (10 ^ 10)) 12 = pure t ∧ Parses t v ∧ t.length ≤ 12 ∧ |v - 10 ^ 10| < 1000 := by
  obtain ⟨v1, v2, v3, v4⟩ := valid_of (10 ^ 10) (n := 10 ^ 10) (d := 1) (by decide +kernel) (by decide +kernel) (by decide +kernel) (by decide +kernel)
  obtain ⟨t, v, t1, t2, t3⟩ := C74_all v1 (by rw [v4]; norm_num) v2 v3 (k := 12) (K := 12) (d := 0) (E := 10) (by norm_num) (by norm_num)
    (by rw [v4]; norm_num [abs_of_pos]) (by rw [v4]; norm_num [abs_of_pos]) (by rw [v4]; decide +kernel)
  rw [v4] at t2 t3
  have e : |(10 ^ 10 : ℚ)| = 10 ^ 10 := abs_of_pos (by norm_num)
  have r : sciRoom ((10 : ℚ) ^ 10 < 0) 10 12 = 7 := by decide +kernel
  rw [if_neg (by norm_num), one_mul] at t2
  rw [e, r] at t3
  refine ⟨t, v, t1, t2, ?_⟩
  rcases t3 with ⟨h | h, -⟩ | ⟨-, h1, h2, h3⟩ | ⟨-, -, -, h1, h2⟩
  · exact absurd h (by decide +kernel)
  · exact absurd h (by decide +kernel)
  · refine ⟨h1.trans (by decide +kernel), ?_⟩
    rw [abs_lt]
    norm_num at h2 h3 ⊢
    constructor <;> linarith
  · refine ⟨h1, ?_⟩
    have : (⌊(10 : ℚ) ^ 10 * 10 ^ 0⌋₊ : ℚ) / 10 ^ 0 = 10 ^ 10 := by decide +kernel
    rw [h2, this]
    norm_num

example : ∃ (t : Str) (v : ℚ), (∀ k, to_approx_string (ofRat (10 ^ 9992)) k = pure t) ∧ Parses t ((if (10 ^ 9992 : ℚ) < 0 then -1 else 1) * v) ∧
    0 < v ∧ |Real.log v - Real.log (|10 ^ 9992| : ℚ)| ≤ 1 / 1000 + 2 / 10 ^ 10 * |Real.log (|10 ^ 9992| : ℚ)| := by
  obtain ⟨v1, v2, v3, v4⟩ := valid_of (10 ^ 9992) (n := 10 ^ 9992) (d := 1) (by decide +kernel) (by decide +kernel)
    (by decide +kernel) (by decide +kernel)
  obtain ⟨t, v, t1, t2, t3, t4⟩ := C74_huge v1 (by rw [v4]; positivity) v2 v3 (.inl (by rw [v4]; decide +kernel))
  rw [v4] at t2 t4
  exact ⟨t, v, t1, t2, t3, t4⟩

/-! ## the `Display` of `Ratio` -/

theorem expText_short {E : Int} (h1 : -9999 ≤ E) (h2 : E ≤ 9999) : (expText E).length ≤ 6 := by
  have h3 : (Nat.toDigits 10 E.natAbs).length ≤ 4 := (Nat.length_toDigits_le_iff (by norm_num) (by norm_num)).2 (by omega)
  have h4 : (if E < 0 then ['-'] else [] : List Char).length ≤ 1 := by split <;> simp
  rw [expText, List.length_cons, List.length_append]
  omega

theorem room_twelve {E : Int} (h : (expText E).length ≤ 6) (neg : Prop) [Decidable neg] : 3 ≤ sciRoom neg E 12 := by
  unfold sciRoom
  split <;> omega

theorem place_le {E : Int} {c v : ℚ} {m : Nat} (hm : 3 ≤ m) (e1 : 10 ^ E ≤ c) (h : c < v + 10 ^ (E - m)) : c < v + c / 1000 := by
  refine lt_of_lt_of_le h (add_le_add_right ?_ _)
  refine (zpow_ten_le (show E - m ≤ E - 3 by omega)).trans ?_
  rw [zpow_sub₀ (by norm_num)]
  norm_num
  linarith

/-- **C74, display.**  Every number of a magnitude between `10^-9991` and `10^9991` that is not next to `10^10` or `10^-10` is displayed in at
most twelve characters.  The value of the text is the number rounded towards zero.  It differs by less than a thousandth of the number if
that is above `10^10` or below `10^-10`, and else by less than a unit of the last of the `10 - i` places (`9 - i` if it is negative)
behind the point, where `i + 1` is the number of digits in front of it. -/
theorem C74_display {x : Ratio} (hx : RValid x) (hn : x.numer.mag.length ≤ 2 ^ 27) (hd : x.denom.mag.length ≤ 2 ^ 27)
    (h1 : (1 + 1 / 10 ^ 5) / 10 ^ 9991 ≤ |rval x|) (h2 : |rval x| < 10 ^ 9991 * (1 - 1 / 10 ^ 5))
    {i : Nat} (hi : i + 1 = (Nat.toDigits 10 ⌊|rval x|⌋₊).length) {δ : ℚ}
    (h : 10 ^ 10 * (1 + 1 / 10 ^ 5) ≤ |rval x| ∧ δ = |rval x| / 1000 ∨ |rval x| ≤ (1 - 1 / 10 ^ 5) / 10 ^ 10 ∧ δ = |rval x| / 1000 ∨
      (1 + 1 / 10 ^ 5) / 10 ^ 10 ≤ |rval x| ∧ |rval x| < 10 ^ 10 * (1 - 1 / 10 ^ 5) ∧ δ = 1 / 10 ^ (10 - i - if rval x < 0 then 1 else 0)) :
    ∃ (t : Str) (v : ℚ), to_string x = pure t ∧ t.length ≤ 12 ∧
      Parses t ((if rval x < 0 then -1 else 1) * v) ∧ v ≤ |rval x| ∧ |rval x| < v + δ := by
  have hpos : 0 < |rval x| := abs_pos.2 (ne_zero_of_ge h1)
  have p9 : ((10 : ℚ) ^ 9991 * (1 - 1 / 10 ^ 5)) ≤ 10 ^ (9991 : Int) := by
    rw [show (9991 : Int) = (9991 : Nat) by rfl, zpow_natCast]
    exact mul_le_of_le_one_right (by positivity) (by norm_num)
  have p8 : (10 : ℚ) ^ (-9991 : Int) ≤ (1 + 1 / 10 ^ 5) / 10 ^ 9991 := by
    rw [show (-9991 : Int) = -((9991 : Nat) : Int) by rfl, zpow_neg, zpow_natCast, div_eq_mul_inv]
    exact le_mul_of_one_le_left (by positivity) (by norm_num)
  have e1 := Int.zpow_log_le_self (b := 10) (by norm_num) hpos
  have e2 := Int.lt_zpow_succ_log_self (b := 10) (by norm_num) |rval x|
  push_cast at e1 e2
  generalize Int.log 10 |rval x| = E at *
  have f1 := zpow_ten_lt (lt_of_le_of_lt e1 (lt_of_lt_of_le h2 p9))
  have f2 := zpow_ten_lt (lt_of_le_of_lt (p8.trans h1) e2)
  have f3 := expText_short (E := E) (by omega) (by omega)
  have f4 := room_twelve f3 (rval x < 0)
  rcases h with ⟨h, rfl⟩ | ⟨h, rfl⟩ | ⟨h, h', rfl⟩
  · obtain ⟨t1, t2, v, t3, t4, t5⟩ := C74_large hx hn hd (k := 12) (K := 12) (by norm_num) h h2 e1 e2 rfl rfl
    exact ⟨_, v, t1, by omega, t3, t4, place_le (by omega) e1 t5⟩
  · obtain ⟨t, v, t1, -, t2, t3, t4, t5⟩ := C74_small hx hn hd (k := 12) (K := 12) (by norm_num) h1 h e1 e2 (p := 7)
      (.inl ⟨rfl, h.trans (div_le_div_of_nonneg_left (by norm_num) (by positivity) (pow_le_pow_right₀ (by norm_num) (by norm_num)))⟩)
    exact ⟨t, v, t1, by omega, t3, t4, place_le (by omega) e1 t5⟩
  · obtain ⟨t1, t2, t3⟩ := C74_fixed hx hn hd (k := 12) (K := 12) (d := 10 - i - if rval x < 0 then 1 else 0) (by norm_num) (by norm_num) h h' h1 h2
      (by rw [← hi]; omega)
    refine ⟨_, _, t1, t2, t3, ?_, ?_⟩
    · rw [div_le_iff₀ (by positivity)]
      exact Nat.floor_le (by positivity)
    · rw [← add_div, lt_div_iff₀ (by positivity)]
      exact Nat.lt_floor_add_one _

example : ∃ (t : Str) (v : ℚ), to_string (ofRat (22 / 7)) = pure t ∧ t.length ≤ 12 ∧ Parses t v ∧ v ≤ 22 / 7 ∧ 22 / 7 < v + 1 / 10 ^ 10 := by
  obtain ⟨v1, v2, v3, v4⟩ := valid_of (22 / 7) (n := 22) (d := 7) (by norm_num) (by norm_num) (by decide +kernel) (by decide +kernel)
  obtain ⟨t, v, t1, t2, t3, t4, t5⟩ := C74_display v1 v2 v3 (by rw [v4]; decide +kernel) (by rw [v4]; decide +kernel) (i := 0)
    (by rw [v4]; decide +kernel) (.inr (.inr ⟨by rw [v4]; norm_num, by rw [v4]; norm_num, rfl⟩))
  rw [v4] at t3 t4 t5
  norm_num [abs_of_pos] at t3 t4 t5
  exact ⟨t, v, t1, t2, t3, t4, by norm_num; exact t5⟩

example : ∃ (t : Str) (v : ℚ), to_string (ofRat (-22 / (7 * 10 ^ 20))) = pure t ∧ t.length ≤ 12 ∧ Parses t (-v) ∧ v ≤ 22 / (7 * 10 ^ 20) ∧
    22 / (7 * 10 ^ 20) < v + 22 / (7 * 10 ^ 20) / 1000 := by
  obtain ⟨v1, v2, v3, v4⟩ := valid_of (-22 / (7 * 10 ^ 20)) (n := -11) (d := 350000000000000000000) (by decide +kernel) (by decide +kernel)
    (by decide +kernel) (by decide +kernel)
  have e : |(-22 / (7 * 10 ^ 20) : ℚ)| = 22 / (7 * 10 ^ 20) := by decide +kernel
  obtain ⟨t, v, t1, t2, t3, t4, t5⟩ := C74_display v1 v2 v3 (by rw [v4]; decide +kernel) (by rw [v4]; decide +kernel) (i := 0)
    (by rw [v4]; decide +kernel) (.inr (.inl ⟨by rw [v4]; decide +kernel, rfl⟩))
  rw [v4] at t3 t4 t5
  rw [if_pos (by norm_num), neg_one_mul] at t3
  rw [e] at t4 t5
  exact ⟨t, v, t1, t2, t3, t4, t5⟩

/-! ## counterexamples -/

/-- A small negative number is displayed as minus zero. -/
theorem C74_counterexample_negative_zero {x : Ratio} (hx : RValid x) (hv : rval x = -5 / 10 ^ 10) : to_string x = pure "-0".toList := by
  obtain rfl : x = ofRat (-5 / 10 ^ 10) := hx.eq_ofRat.trans (congrArg ofRat hv)
  exact (fixed_example (-5 / 10 ^ 10) (n := -1) (d := 2000000000) (k := 12) (K := 12) (e := 9) (by decide +kernel) (by decide +kernel) (by decide +kernel)
    (by decide +kernel) (by norm_num) (by norm_num) (by norm_num) (by norm_num) (by decide +kernel)).trans (congrArg pure (by decide +kernel))

example : RValid (ofRat (-5 / 10 ^ 10)) ∧ rval (ofRat (-5 / 10 ^ 10)) = -5 / 10 ^ 10 := ⟨rvalid_ofRat _, rval_ofRat _⟩

/-- The text is longer than `max_len`: the documentation promises a text that is not longer (6 counts as 6). -/
theorem C74_counterexample_length {x : Ratio} (hx : RValid x) (hv : rval x = 123 * 10 ^ 98) : to_approx_string x 6 = pure "1.2e100".toList ∧ "1.2e100".toList.length = 7 := by
  obtain rfl : x = ofRat (123 * 10 ^ 98) := hx.eq_ofRat.trans (congrArg ofRat hv)
  refine ⟨?_, by decide +kernel⟩
  obtain ⟨v1, v2, v3, v4⟩ := valid_of (123 * 10 ^ 98) (n := 123 * 10 ^ 98) (d := 1) (by decide +kernel) (by decide +kernel)
    (by decide +kernel) (by decide +kernel)
  refine (C74_large v1 v2 v3 (k := 6) (K := 6) (E := 100) (X := 92) (by norm_num) (by rw [v4]; decide +kernel) (by rw [v4]; decide +kernel)
    (by rw [v4]; decide +kernel) (by rw [v4]; decide +kernel) (by norm_num) rfl).1.trans ?_
  rw [v4]
  exact congrArg pure (by decide +kernel)

example : RValid (ofRat (123 * 10 ^ 98)) ∧ rval (ofRat (123 * 10 ^ 98)) = 123 * 10 ^ 98 := ⟨rvalid_ofRat _, rval_ofRat _⟩

/-- A negative number is shown with one digit only, though a comment in the code says that there are at least two. -/
theorem C74_counterexample_one_digit {x : Ratio} (hx : RValid x) (hv : rval x = -19 * 10 ^ 99) : to_approx_string x 6 = pure "-1e100".toList := by
  obtain rfl : x = ofRat (-19 * 10 ^ 99) := hx.eq_ofRat.trans (congrArg ofRat hv)
  obtain ⟨v1, v2, v3, v4⟩ := valid_of (-19 * 10 ^ 99) (n := -19 * 10 ^ 99) (d := 1) (by decide +kernel) (by decide +kernel)
    (by decide +kernel) (by decide +kernel)
  refine (C74_large v1 v2 v3 (k := 6) (K := 6) (E := 100) (X := 92) (by norm_num) (by rw [v4]; decide +kernel) (by rw [v4]; decide +kernel)
    (by rw [v4]; decide +kernel) (by rw [v4]; decide +kernel) (by norm_num) rfl).1.trans ?_
  rw [v4]
  exact congrArg pure (by decide +kernel)

example : RValid (ofRat (-19 * 10 ^ 99)) ∧ rval (ofRat (-19 * 10 ^ 99)) = -19 * 10 ^ 99 := ⟨rvalid_ofRat _, rval_ofRat _⟩

/-- Trailing zeros are not removed if digits behind them were cut off. -/
theorem C74_counterexample_trailing_zeros {x : Ratio} (hx : RValid x) (hv : rval x = 10001 * 10 ^ 16) : to_approx_string x 8 = pure "1.000e20".toList := by
  obtain rfl : x = ofRat (10001 * 10 ^ 16) := hx.eq_ofRat.trans (congrArg ofRat hv)
  obtain ⟨v1, v2, v3, v4⟩ := valid_of (10001 * 10 ^ 16) (n := 10001 * 10 ^ 16) (d := 1) (by decide +kernel) (by decide +kernel)
    (by decide +kernel) (by decide +kernel)
  refine (C74_large v1 v2 v3 (k := 8) (K := 8) (E := 20) (X := 12) (by norm_num) (by rw [v4]; decide +kernel) (by rw [v4]; decide +kernel)
    (by rw [v4]; decide +kernel) (by rw [v4]; decide +kernel) (by norm_num) rfl).1.trans ?_
  rw [v4]
  exact congrArg pure (by decide +kernel)

example : RValid (ofRat (10001 * 10 ^ 16)) ∧ rval (ofRat (10001 * 10 ^ 16)) = 10001 * 10 ^ 16 := ⟨rvalid_ofRat _, rval_ofRat _⟩

/-- A digit is lost though there is room for it: `1.299e-7` has eight characters. -/
theorem C74_counterexample_lost_digit {x : Ratio} (hx : RValid x) (hv : rval x = 1299 / 10 ^ 10) : to_approx_string x 8 = pure "1.29e-7".toList := by
  obtain rfl : x = ofRat (1299 / 10 ^ 10) := hx.eq_ofRat.trans (congrArg ofRat hv)
  obtain ⟨v1, v2, v3, v4⟩ := valid_of (1299 / 10 ^ 10) (n := 1299) (d := 10 ^ 10) (by decide +kernel) (by decide +kernel)
    (by decide +kernel) (by decide +kernel)
  refine (C74_small_text v1 v2 v3 (k := 8) (K := 8) (E := 7) (X := -9) (by norm_num) (by rw [v4]; decide +kernel) (by rw [v4]; decide +kernel)
    (by rw [v4]; decide +kernel) (by rw [v4]; decide +kernel) (by norm_num)).trans ?_
  rw [v4]
  exact congrArg pure (by decide +kernel)

example : RValid (ofRat (1299 / 10 ^ 10)) ∧ rval (ofRat (1299 / 10 ^ 10)) = 1299 / 10 ^ 10 := ⟨rvalid_ofRat _, rval_ofRat _⟩

/-- Every number from `2^(2^31)` on is shown more than 17 percent too small, although with four digits. -/
theorem C74_counterexample_huge {x : Ratio} (hx : RValid x) (hn : x.numer.mag.length ≤ 2 ^ 27) (hd : x.denom.mag.length ≤ 2 ^ 27)
    (h1 : 2 ^ 31 * Real.log 2 ≤ Real.log (|rval x| : ℚ)) :
    ∃ (t : Str) (v : ℚ), (∀ k, to_approx_string x k = pure t) ∧ Parses t ((if rval x < 0 then -1 else 1) * v) ∧ v < 83 / 100 * |rval x| := by
  obtain ⟨ex, l1, l2⟩ := lengths hx
  rw [← l1] at hn
  rw [← l2] at hd
  generalize rval x = q at *
  subst ex
  have hl2 : 0 < Real.log 2 := Real.log_pos (by norm_num)
  have h0 : q ≠ 0 := by
    rintro rfl
    simp at h1
    linarith
  obtain ⟨D, d1, d2, hr, ht⟩ := approx_cases h0 hn hd
  have hD : 2 ^ 62 ≤ D := by
    have g := d2.2
    have g2 : (2 ^ 62 : ℝ) * Real.log 2 < D * Real.log 2 := by
      norm_num at *
      linarith
    have g3 := lt_of_mul_lt_mul_right g2 hl2.le
    have g4 : 2 ^ 62 < D := by exact_mod_cast g3
    exact g4.le
  have hA : (est10 D).natAbs > 9990 := by
    have := tdiv_bounds (D * 21306) (d := 303984900308992) (by norm_num)
    unfold est10
    omega
  obtain ⟨t, v, t1, t2, t3, t4, -⟩ := huge_c (q := q) (by intro h; rw [h] at hA; omega) d1 d2 (q < 0)
  refine ⟨t, v, ?_, t2, ?_⟩
  · intro k
    rw [ht rfl, if_pos hA, t1]
  · have g := est_log_low d2 h1
    have hq : (0 : ℝ) < ((|q| : ℚ) : ℝ) := by exact_mod_cast abs_pos.2 h0
    have hv : (0 : ℝ) < v := by exact_mod_cast t3
    have g2 : Real.log v < Real.log (83 / 100 * ((|q| : ℚ) : ℝ)) := by
      rw [Real.log_mul (by norm_num) hq.ne']
      have g3 := Real.one_sub_inv_le_log_of_pos (show (0 : ℝ) < 83 / 100 by norm_num)
      have g4 := (abs_le.1 t4).2
      generalize Real.log (|q| : ℚ) = X at *
      norm_num at *
      linarith
    have g5 := (Real.log_lt_log_iff hv (by positivity)).1 g2
    have : (v : ℝ) < ((83 / 100 * |q| : ℚ) : ℝ) := by push_cast at *; exact g5
    exact_mod_cast this

example : ∃ x : Ratio, RValid x ∧ x.numer.mag.length ≤ 2 ^ 27 ∧ x.denom.mag.length ≤ 2 ^ 27 ∧ 2 ^ 31 * Real.log 2 ≤ Real.log (|rval x| : ℚ) := by
  obtain ⟨n, hn⟩ : ∃ n : Nat, n = 2 ^ 26 := ⟨_, rfl⟩
  refine ⟨ofRat ((B32 ^ n : Nat) : ℚ), rvalid_ofRat _, ?_, ?_, ?_⟩
  · rw [numer_ofRat, BigI.mag_ofInt, Rat.num_natCast, Int.natAbs_natCast]
    refine le_trans ((length_ofNat_le_iff (k := n + 1) (by omega)).2 ?_) (by omega)
    exact Nat.pow_lt_pow_right (by norm_num) (by omega)
  · rw [denom_ofRat, BigI.mag_ofInt, Rat.den_natCast]
    refine le_trans ((length_ofNat_le_iff (k := 1) (by omega)).2 ?_) (by omega)
    norm_num
  · rw [rval_ofRat, abs_of_nonneg (Nat.cast_nonneg _), Rat.cast_natCast, Nat.cast_pow, Real.log_pow]
    have e : Real.log ((B32 : Nat) : ℝ) = 32 * Real.log 2 := by
      have := Real.log_pow (2 : ℝ) 32
      rw [show ((2 : ℝ) ^ 32) = ((B32 : Nat) : ℝ) by norm_num] at this
      rw [this]
      norm_num
    have hn' : (n : ℝ) = 2 ^ 26 := by rw [hn]; norm_num
    rw [e, hn']
    have hl2 : 0 < Real.log 2 := Real.log_pos (by norm_num)
    norm_num
    linarith

end Props
end Hmath
