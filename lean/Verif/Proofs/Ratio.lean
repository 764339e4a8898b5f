import Verif.Spec.Ratio
import Verif.Proofs.BigInt
import Mathlib.Data.Rat.Floor
import Mathlib.Data.Rat.Lemmas
import Mathlib.RingTheory.Coprime.Lemmas
import Mathlib.RingTheory.Int.Basic
import Mathlib.Tactic.FieldSimp
import Mathlib.Tactic.Ring
import Mathlib.Tactic.Linarith
import Mathlib.Tactic.Positivity
import Mathlib.Tactic.NormNum

namespace Hmath

/-- the canonical `Ratio` of a rational -/
def ofRat (q : ℚ) : Ratio := ⟨ofInt q.den, ofInt q.num⟩

theorem rvalid_ofRat (q : ℚ) : RValid (ofRat q) := by
  refine ⟨ivalid_ofInt _, ivalid_ofInt _, ?_, ?_⟩
  · simp only [ofRat, ival_ofInt]; exact_mod_cast q.den_pos
  · simp only [ofRat, ival_ofInt]; rw [Int.gcd_def, Int.natAbs_natCast]; exact q.reduced

@[simp] theorem rval_ofRat (q : ℚ) : rval (ofRat q) = q := by
  simp only [rval, ofRat, ival_ofInt, Int.cast_natCast, Rat.num_div_den]

theorem computesR_of_eq {m : M Ratio} {q : ℚ} (h : m = pure (ofRat q)) : ComputesR m q :=
  ⟨ofRat q, h, rvalid_ofRat q, rval_ofRat q⟩

namespace Ratio

theorem mk_c {d n : Int} {q : ℚ} (hd : 0 < d) (hc : Int.gcd n d = 1) (hq : (n : ℚ) / d = q) :
    (⟨ofInt d, ofInt n⟩ : Ratio) = ofRat q := by
  subst hq
  obtain ⟨k, rfl⟩ := Int.eq_ofNat_of_zero_le hd.le
  have hc' : n.natAbs.Coprime (k : Int).natAbs := hc
  rw [ofRat, Rat.num_div_eq_of_coprime hd hc', Rat.den_div_eq_of_coprime hd hc']

end Ratio

theorem RValid.eq_ofRat {x : Ratio} (h : RValid x) : x = ofRat (rval x) := by
  obtain ⟨d, n⟩ := x
  have := Ratio.mk_c (q := rval ⟨d, n⟩) h.pos h.coprime rfl
  rw [← this]
  simp only [← h.denom.eq_ofInt, ← h.numer.eq_ofInt]

namespace Ratio

@[simp] theorem denom_ofRat (q : ℚ) : (ofRat q).denom = ofInt q.den := rfl
@[simp] theorem numer_ofRat (q : ℚ) : (ofRat q).numer = ofInt q.num := rfl

theorem fixSign_c {d n : Int} : fixSign ⟨ofInt d, ofInt n⟩ =
    if d < 0 then ⟨ofInt (-d), ofInt (-n)⟩ else ⟨ofInt d, ofInt n⟩ := by
  rw [fixSign, BigI.is_neg_c]
  simp only [decide_eq_true_eq, BigI.negate_mut_c]

theorem reduce_c {d n : Int} (hd : 0 < d) :
    reduce ⟨ofInt d, ofInt n⟩ = pure (ofRat ((n : ℚ) / d)) := by
  rw [reduce, BigI.gcd_bi_c, pure_bind, BigI.is_one_c]
  have hg : 0 < Int.gcd d n := Int.gcd_pos_of_ne_zero_left _ hd.ne'
  have hdq : (d : ℚ) ≠ 0 := by exact_mod_cast hd.ne'
  by_cases h : ((Int.gcd d n : Nat) : Int) = 1
  · rw [if_pos (by simp [h]), mk_c hd (by rw [Int.gcd_comm]; exact_mod_cast h) rfl]
  · rw [if_neg (by simpa using h)]
    simp only []
    have hg0 : ((Int.gcd d n : Nat) : Int) ≠ 0 := by omega
    rw [BigI.div_mut_c hg0, pure_bind, BigI.div_mut_c hg0, pure_bind]
    rw [Int.tdiv_eq_ediv_of_dvd (Int.gcd_dvd_left ..), Int.tdiv_eq_ediv_of_dvd (Int.gcd_dvd_right ..)]
    have hgq : ((Int.gcd d n : Nat) : ℚ) ≠ 0 := by exact_mod_cast hg.ne'
    rw [mk_c (q := (n : ℚ) / d)]
    · exact Int.ediv_pos_of_pos_of_dvd hd (by omega) (Int.gcd_dvd_left ..)
    · rw [Int.gcd_comm]; exact Int.gcd_div_gcd_div_gcd hg
    · rw [Int.cast_div (Int.gcd_dvd_left ..) (by exact_mod_cast hgq),
        Int.cast_div (Int.gcd_dvd_right ..) (by exact_mod_cast hgq), Int.cast_natCast]
      field_simp

theorem fit_c {d n : Int} {q : ℚ} (hd : d ≠ 0) (hq : (n : ℚ) / d = q) :
    fit ⟨ofInt d, ofInt n⟩ = pure (ofRat q) := by
  subst hq
  rw [fit, fixSign_c]
  split_ifs with h
  · rw [reduce_c (by omega)]
    congr 2
    push_cast; rw [neg_div_neg_eq]
  · rw [reduce_c (by omega)]

theorem from_dn_c {d n : Int} {q : ℚ} (hd : d ≠ 0) (hq : (n : ℚ) / d = q) :
    from_denom_and_numer (ofInt d) (ofInt n) = pure (ofRat q) := fit_c hd hq

/-- `fit` with denominator zero: `gcd(0,n) = |n|`, and the result has denominator 0. -/
theorem fit_zero {n : Int} (hn : n ≠ 0) :
    fit ⟨ofInt 0, ofInt n⟩ = pure ⟨ofInt 0, ofInt n.sign⟩ := by
  rw [fit, fixSign_c, if_neg (by omega), reduce, BigI.gcd_bi_c, pure_bind, BigI.is_one_c,
    Int.gcd_zero_left]
  by_cases h : (n.natAbs : Int) = 1
  · rw [if_pos (by simpa using h)]
    have : n = n.sign := by
      rcases lt_or_gt_of_ne hn with h1 | h1
      · rw [Int.sign_eq_neg_one_of_neg h1]; omega
      · rw [Int.sign_eq_one_of_pos h1]; omega
    rw [← this]
  · rw [if_neg (by simpa using h)]
    rw [BigI.div_mut_c (by omega), pure_bind, BigI.div_mut_c (by omega), pure_bind, Int.zero_tdiv]
    congr 3
    rcases lt_or_gt_of_ne hn with h1 | h1
    · rw [Int.sign_eq_neg_one_of_neg h1]
      obtain ⟨k, rfl⟩ : ∃ k : Nat, n = -k := ⟨n.natAbs, by omega⟩
      simp only [Int.natAbs_neg, Int.natAbs_natCast, Int.neg_tdiv]
      rw [Int.tdiv_self (by omega)]
    · rw [Int.sign_eq_one_of_pos h1]
      obtain ⟨k, rfl⟩ : ∃ k : Nat, n = k := ⟨n.natAbs, by omega⟩
      simp only [Int.natAbs_natCast]
      rw [Int.tdiv_self (by omega)]

theorem fit_zero_zero : fit ⟨ofInt 0, ofInt 0⟩ = throw .divZero := by
  rw [fit, fixSign_c, if_neg (by omega), reduce, BigI.gcd_bi_c, pure_bind, BigI.is_one_c]
  rw [if_neg (by simp)]
  have : ((Int.gcd 0 0 : Nat) : Int) = 0 := rfl
  rw [this, BigI.div_mut_zero_c]; rfl

theorem zero_c : zero = ofRat 0 := by rw [zero, BigI.one_c, BigI.zero_c]; rfl
theorem one_c : one = ofRat 1 := by rw [one, BigI.one_c]; rfl
theorem is_neg_c (q : ℚ) : is_neg (ofRat q) = decide (q < 0) := by
  rw [is_neg, numer_ofRat, BigI.is_neg_c]; simp only [Rat.num_neg]
theorem den_ne (q : ℚ) : (q.den : Int) ≠ 0 := by exact_mod_cast q.den_nz
theorem den_pos' (q : ℚ) : 0 < (q.den : Int) := by exact_mod_cast q.den_pos
theorem den_neq (q : ℚ) : (q.den : ℚ) ≠ 0 := by exact_mod_cast q.den_nz
theorem num_eq (q : ℚ) : (q.num : ℚ) = q * q.den := by
  have := Rat.num_div_den q
  have h := den_neq q
  field_simp at this; rw [this, mul_comm]
theorem is_zero_c (q : ℚ) : is_zero (ofRat q) = decide (q = 0) := by
  rw [is_zero, numer_ofRat, denom_ofRat, BigI.is_zero_c, BigI.is_one_c, Bool.eq_iff_iff]
  simp only [Bool.and_eq_true, decide_eq_true_eq, Rat.num_eq_zero]
  constructor
  · exact fun h => h.2
  · rintro rfl; exact ⟨rfl, rfl⟩
theorem is_one_c (q : ℚ) : is_one (ofRat q) = decide (q = 1) := by
  rw [is_one, numer_ofRat, denom_ofRat, BigI.is_one_c, BigI.is_one_c, Bool.eq_iff_iff]
  simp only [Bool.and_eq_true, decide_eq_true_eq]
  constructor
  · rintro ⟨h1, h2⟩
    have := Rat.num_div_den q
    have h3 : q.den = 1 := by exact_mod_cast h1
    rw [h2, h3] at this; simpa using this.symm
  · rintro rfl; exact ⟨rfl, rfl⟩
theorem is_integer_c (q : ℚ) : is_integer (ofRat q) = decide (q.den = 1) := by
  rw [is_integer, denom_ofRat, BigI.is_one_c]; simp

section arith
variable (p q : ℚ)

theorem add_val : ((p.den * q.num + q.den * p.num : Int) : ℚ) / ((p.den * q.den : Int) : ℚ) = p + q := by
  push_cast
  have h1 := den_neq p; have h2 := den_neq q
  rw [num_eq p, num_eq q]; field_simp; ring
theorem sub_val : ((p.num * q.den - q.num * p.den : Int) : ℚ) / ((p.den * q.den : Int) : ℚ) = p - q := by
  push_cast
  have h1 := den_neq p; have h2 := den_neq q
  rw [num_eq p, num_eq q]; field_simp
theorem mul_val : ((p.num * q.num : Int) : ℚ) / ((p.den * q.den : Int) : ℚ) = p * q := by
  push_cast
  have h1 := den_neq p; have h2 := den_neq q
  rw [num_eq p, num_eq q]; field_simp
theorem div_val : ((p.num * q.den : Int) : ℚ) / ((p.den * q.num : Int) : ℚ) = p / q := by
  push_cast
  have h1 := den_neq p; have h2 := den_neq q
  rw [num_eq p, num_eq q]
  by_cases hq : q = 0
  · simp [hq]
  field_simp

theorem mul_den_ne : ((p.den : Int) * q.den) ≠ 0 := mul_ne_zero (den_ne p) (den_ne q)

theorem add_c : add (ofRat p) (ofRat q) = pure (ofRat (p + q)) := by
  simp only [add, denom_ofRat, numer_ofRat, BigI.mul_c, pure_bind, BigI.add_c]
  exact from_dn_c (mul_den_ne p q) (add_val p q)
theorem add_mut_c : add_mut (ofRat p) (ofRat q) = pure (ofRat (p + q)) := by
  simp only [add_mut, denom_ofRat, numer_ofRat, BigI.mul_c, BigI.mul_mut_c, pure_bind, BigI.add_c]
  exact fit_c (mul_den_ne p q) (add_val p q)
theorem sub_c : sub (ofRat p) (ofRat q) = pure (ofRat (p - q)) := by
  simp only [sub, denom_ofRat, numer_ofRat, BigI.mul_c, pure_bind, BigI.sub_c]
  exact from_dn_c (mul_den_ne p q) (sub_val p q)
theorem sub_mut_c : sub_mut (ofRat p) (ofRat q) = pure (ofRat (p - q)) := by
  simp only [sub_mut, denom_ofRat, numer_ofRat, BigI.mul_c, BigI.mul_mut_c, pure_bind, BigI.sub_c]
  exact fit_c (mul_den_ne p q) (sub_val p q)
theorem mul_c : mul (ofRat p) (ofRat q) = pure (ofRat (p * q)) := by
  simp only [mul, denom_ofRat, numer_ofRat, BigI.mul_c, pure_bind]
  exact from_dn_c (mul_den_ne p q) (mul_val p q)
theorem mul_mut_c : mul_mut (ofRat p) (ofRat q) = pure (ofRat (p * q)) := by
  simp only [mul_mut, denom_ofRat, numer_ofRat, BigI.mul_mut_c, pure_bind]
  exact fit_c (mul_den_ne p q) (mul_val p q)

variable {p q} in
theorem div_c (hq : q ≠ 0) : div (ofRat p) (ofRat q) = pure (ofRat (p / q)) := by
  simp only [div, denom_ofRat, numer_ofRat, BigI.mul_c, pure_bind]
  exact from_dn_c (mul_ne_zero (den_ne p) (by simpa using hq)) (div_val p q)
variable {p q} in
theorem div_mut_c (hq : q ≠ 0) : div_mut (ofRat p) (ofRat q) = pure (ofRat (p / q)) := by
  simp only [div_mut, denom_ofRat, numer_ofRat, BigI.mul_mut_c, pure_bind]
  exact fit_c (mul_ne_zero (den_ne p) (by simpa using hq)) (div_val p q)

/-- `⟨den, num + den*k⟩` is in lowest terms -/
theorem shift_c (k : Int) {n : Int} (hn : n = p.num + p.den * k) :
    (⟨ofInt p.den, ofInt n⟩ : Ratio) = ofRat (p + k) := by
  subst hn
  apply mk_c (den_pos' p)
  · have : Int.gcd p.num p.den = 1 := by rw [Int.gcd_def, Int.natAbs_natCast]; exact p.reduced
    rw [← this]
    simp
  · have h1 := den_neq p
    push_cast; rw [num_eq p]; field_simp

theorem add_bi_c (k : Int) : add_bi (ofRat p) (ofInt k) = pure (ofRat (p + k)) := by
  simp only [add_bi, denom_ofRat, numer_ofRat, BigI.mul_c, pure_bind, BigI.add_c,
    from_denom_and_numer_raw, shift_c p k rfl]
theorem add_bi_mut_c (k : Int) : add_bi_mut (ofRat p) (ofInt k) = pure (ofRat (p + k)) := by
  simp only [add_bi_mut, denom_ofRat, numer_ofRat, BigI.mul_c, pure_bind, BigI.add_mut_c,
    shift_c p k rfl]
theorem sub_bi_c (k : Int) : sub_bi (ofRat p) (ofInt k) = pure (ofRat (p - k)) := by
  simp only [sub_bi, denom_ofRat, numer_ofRat, BigI.mul_c, pure_bind, BigI.sub_c,
    from_denom_and_numer_raw]
  rw [shift_c p (-k) (by ring)]; push_cast; rw [sub_eq_add_neg]
theorem sub_bi_mut_c (k : Int) : sub_bi_mut (ofRat p) (ofInt k) = pure (ofRat (p - k)) := by
  simp only [sub_bi_mut, denom_ofRat, numer_ofRat, BigI.mul_c, pure_bind, BigI.sub_mut_c]
  rw [shift_c p (-k) (by ring)]; push_cast; rw [sub_eq_add_neg]

variable {o : Int}
theorem add_i32_c (ho : IsI32 o) (h' : o ≠ -2147483648) :
    add_i32 (ofRat p) o = pure (ofRat (p + o)) := by
  simp only [add_i32, denom_ofRat, numer_ofRat, BigI.mul_i32_c ho h', pure_bind, BigI.add_c,
    from_denom_and_numer_raw, shift_c p o rfl]
theorem add_i32_mut_c (ho : IsI32 o) (h' : o ≠ -2147483648) :
    add_i32_mut (ofRat p) o = pure (ofRat (p + o)) := by
  simp only [add_i32_mut, denom_ofRat, numer_ofRat, BigI.mul_i32_c ho h', pure_bind, BigI.add_mut_c,
    shift_c p o rfl]
theorem sub_i32_c (ho : IsI32 o) (h' : o ≠ -2147483648) :
    sub_i32 (ofRat p) o = pure (ofRat (p - o)) := by
  simp only [sub_i32, denom_ofRat, numer_ofRat, BigI.mul_i32_c ho h', pure_bind, BigI.sub_c,
    from_denom_and_numer_raw]
  rw [shift_c p (-o) (by ring)]; push_cast; rw [sub_eq_add_neg]
theorem sub_i32_mut_c (ho : IsI32 o) (h' : o ≠ -2147483648) :
    sub_i32_mut (ofRat p) o = pure (ofRat (p - o)) := by
  simp only [sub_i32_mut, denom_ofRat, numer_ofRat, BigI.mul_i32_c ho h', pure_bind, BigI.sub_mut_c]
  rw [shift_c p (-o) (by ring)]; push_cast; rw [sub_eq_add_neg]

theorem mul_int_val (k : Int) : ((p.num * k : Int) : ℚ) / ((p.den : Int) : ℚ) = p * k := by
  push_cast
  have h1 := den_neq p
  rw [num_eq p]; field_simp
theorem div_int_val (k : Int) : (p.num : ℚ) / ((p.den * k : Int) : ℚ) = p / k := by
  push_cast
  have h1 := den_neq p
  rw [num_eq p]
  by_cases hk : (k : ℚ) = 0
  · simp [hk]
  field_simp

theorem mul_i32_c (ho : IsI32 o) (h' : o ≠ -2147483648) :
    mul_i32 (ofRat p) o = pure (ofRat (p * o)) := by
  simp only [mul_i32, denom_ofRat, numer_ofRat, BigI.mul_i32_c ho h', pure_bind]
  exact from_dn_c (den_ne p) (mul_int_val p o)
theorem mul_i32_mut_c (ho : IsI32 o) (h' : o ≠ -2147483648) :
    mul_i32_mut (ofRat p) o = pure (ofRat (p * o)) := by
  simp only [mul_i32_mut, denom_ofRat, numer_ofRat, BigI.mul_i32_mut_c ho h', pure_bind]
  exact fit_c (den_ne p) (mul_int_val p o)
theorem div_i32_c (ho : IsI32 o) (h' : o ≠ -2147483648) (h0 : o ≠ 0) :
    div_i32 (ofRat p) o = pure (ofRat (p / o)) := by
  simp only [div_i32, denom_ofRat, numer_ofRat, BigI.mul_i32_c ho h', pure_bind]
  exact from_dn_c (mul_ne_zero (den_ne p) h0) (div_int_val p o)
theorem div_i32_mut_c (ho : IsI32 o) (h' : o ≠ -2147483648) (h0 : o ≠ 0) :
    div_i32_mut (ofRat p) o = pure (ofRat (p / o)) := by
  simp only [div_i32_mut, denom_ofRat, numer_ofRat, BigI.mul_i32_mut_c ho h', pure_bind]
  exact fit_c (mul_ne_zero (den_ne p) h0) (div_int_val p o)

theorem gcd_num_den : Int.gcd p.num p.den = 1 := by
  rw [Int.gcd_def, Int.natAbs_natCast]; exact p.reduced

/-- generic step of `mul_bi`, `div_bi`: cancelling `g = gcd(x, k)` -/
theorem cancel_coprime {x y k : Int} (hxy : Int.gcd y x = 1) (hg : 0 < Int.gcd x k) :
    Int.gcd (y * (k / (Int.gcd x k : Nat))) (x / (Int.gcd x k : Nat)) = 1 := by
  have h1 : IsCoprime y (x / (Int.gcd x k : Nat)) := by
    have : IsCoprime y x := Int.isCoprime_iff_gcd_eq_one.2 hxy
    exact this.of_isCoprime_of_dvd_right (Int.ediv_dvd_of_dvd (Int.gcd_dvd_left ..))
  have h2 : IsCoprime (k / (Int.gcd x k : Nat)) (x / (Int.gcd x k : Nat)) := by
    rw [Int.isCoprime_iff_gcd_eq_one, Int.gcd_comm]
    exact Int.gcd_div_gcd_div_gcd hg
  exact Int.isCoprime_iff_gcd_eq_one.1 (h1.mul_left h2)

theorem mul_bi_mut_c (k : Int) : mul_bi_mut (ofRat p) (ofInt k) = pure (ofRat (p * k)) := by
  rw [mul_bi_mut, denom_ofRat, numer_ofRat, BigI.gcd_bi_c, pure_bind, BigI.is_one_c]
  have hg : 0 < Int.gcd p.den k := Int.gcd_pos_of_ne_zero_left _ (den_ne p)
  have hgq : ((Int.gcd p.den k : Nat) : ℚ) ≠ 0 := by exact_mod_cast hg.ne'
  have hc := cancel_coprime (gcd_num_den p) hg
  by_cases h : ((Int.gcd p.den k : Nat) : Int) = 1
  · rw [if_pos (by simpa using h), BigI.mul_mut_c, pure_bind]
    rw [mk_c (den_pos' p) _ (mul_int_val p k)]
    rw [h, Int.ediv_one, Int.ediv_one] at hc; exact hc
  · rw [if_neg (by simpa using h)]
    rw [BigI.div_c (by omega), pure_bind, BigI.mul_mut_c, pure_bind, BigI.div_mut_c (by omega),
      pure_bind, Int.tdiv_eq_ediv_of_dvd (Int.gcd_dvd_left ..),
      Int.tdiv_eq_ediv_of_dvd (Int.gcd_dvd_right ..)]
    rw [mk_c _ hc]
    · rw [← mul_int_val p k]; push_cast
      rw [Int.cast_div (Int.gcd_dvd_left ..) (by exact_mod_cast hgq),
        Int.cast_div (Int.gcd_dvd_right ..) (by exact_mod_cast hgq), Int.cast_natCast,
        Int.cast_natCast]
      have := den_neq p
      field_simp
    · exact Int.ediv_pos_of_pos_of_dvd (den_pos' p) (by omega) (Int.gcd_dvd_left ..)

theorem mul_bi_c (k : Int) : mul_bi (ofRat p) (ofInt k) = pure (ofRat (p * k)) := mul_bi_mut_c p k

theorem fixSign_mk {d n : Int} {q : ℚ} (hd : d ≠ 0) (hc : Int.gcd n d = 1) (hq : (n : ℚ) / d = q) :
    fixSign ⟨ofInt d, ofInt n⟩ = ofRat q := by
  rw [fixSign_c]
  split_ifs with h
  · apply mk_c (by omega)
    · rw [Int.gcd_neg, Int.neg_gcd]; exact hc
    · rw [← hq]; push_cast; rw [neg_div_neg_eq]
  · exact mk_c (by omega) hc hq

theorem divBiCore_c {k : Int} (hk : k ≠ 0) : ∃ d n : Int, d ≠ 0 ∧ Int.gcd n d = 1 ∧
    (n : ℚ) / d = p / k ∧ divBiCore (ofRat p) (ofInt k) = pure ⟨ofInt d, ofInt n⟩ := by
  rw [divBiCore, denom_ofRat, numer_ofRat, BigI.gcd_bi_c, pure_bind, BigI.is_one_c]
  have hg : 0 < Int.gcd p.num k := Int.gcd_pos_of_ne_zero_right _ hk
  have hgq : ((Int.gcd p.num k : Nat) : ℚ) ≠ 0 := by exact_mod_cast hg.ne'
  have hc := cancel_coprime (by rw [Int.gcd_comm]; exact gcd_num_den p) hg
  by_cases h : ((Int.gcd p.num k : Nat) : Int) = 1
  · rw [if_pos (by simpa using h), BigI.mul_mut_c, pure_bind]
    refine ⟨_, _, mul_ne_zero (den_ne p) hk, ?_, div_int_val p k, rfl⟩
    rw [h, Int.ediv_one, Int.ediv_one, Int.gcd_comm] at hc; exact hc
  · rw [if_neg (by simpa using h)]
    rw [BigI.div_c (by omega), pure_bind, BigI.mul_mut_c, pure_bind, BigI.div_mut_c (by omega),
      pure_bind, Int.tdiv_eq_ediv_of_dvd (Int.gcd_dvd_left ..),
      Int.tdiv_eq_ediv_of_dvd (Int.gcd_dvd_right ..)]
    refine ⟨_, _, ?_, by rw [Int.gcd_comm]; exact hc, ?_, rfl⟩
    · refine mul_ne_zero (den_ne p) ?_
      intro h0
      have := Int.eq_mul_of_ediv_eq_right (Int.gcd_dvd_right ..) h0
      simp at this; exact hk this
    · rw [← div_int_val p k]; push_cast
      rw [Int.cast_div (Int.gcd_dvd_left ..) (by exact_mod_cast hgq),
        Int.cast_div (Int.gcd_dvd_right ..) (by exact_mod_cast hgq), Int.cast_natCast]
      have := den_neq p
      have hkq : (k : ℚ) ≠ 0 := by exact_mod_cast hk
      field_simp

theorem div_bi_mut_c {k : Int} (hk : k ≠ 0) :
    div_bi_mut (ofRat p) (ofInt k) = pure (ofRat (p / k)) := by
  obtain ⟨d, n, h1, h2, h3, h4⟩ := divBiCore_c p hk
  rw [div_bi_mut, BigI.is_zero_c, if_neg (by simpa using hk), h4, pure_bind, fixSign_mk h1 h2 h3]
theorem div_bi_c {k : Int} (hk : k ≠ 0) :
    div_bi (ofRat p) (ofInt k) = pure (ofRat (p / k)) := div_bi_mut_c p hk
theorem div_bi_zero : div_bi (ofRat p) (ofInt 0) = throw .explicit := by
  rw [div_bi, div_bi_mut, BigI.is_zero_c]; rfl

theorem negate_c : negate (ofRat p) = ofRat (-p) := by
  rw [negate, denom_ofRat, numer_ofRat, BigI.negate_c]; rfl
theorem negate_mut_c : negate_mut (ofRat p) = ofRat (-p) := by
  rw [negate_mut, denom_ofRat, numer_ofRat, BigI.negate_mut_c]; rfl
theorem ofRat_abs : (⟨ofInt p.den, ofInt |p.num|⟩ : Ratio) = ofRat |p| := by
  apply mk_c (den_pos' p)
  · rw [← gcd_num_den p, Int.gcd_def, Int.gcd_def, Int.natAbs_abs]
  · push_cast
    have h1 := den_neq p
    rw [num_eq p, abs_mul, Nat.abs_cast]
    field_simp
theorem abs_c : abs (ofRat p) = ofRat |p| := by
  rw [abs, denom_ofRat, numer_ofRat, BigI.abs_c, ← ofRat_abs]; rfl
theorem abs_mut_c : abs_mut (ofRat p) = ofRat |p| := by
  rw [abs_mut, denom_ofRat, numer_ofRat, BigI.abs_mut_c, ← ofRat_abs]

theorem reci_c {p : ℚ} (hp : p ≠ 0) : reci (ofRat p) = pure (ofRat p⁻¹) := by
  have hn : p.num ≠ 0 := by simpa using hp
  rw [reci]
  simp only [from_denom_and_numer_raw, denom_ofRat, numer_ofRat, BigI.is_zero_c]
  rw [if_neg (by simpa using hp), fixSign_mk hn (by rw [Int.gcd_comm]; exact gcd_num_den p)]
  have h1 := den_neq p
  push_cast; rw [num_eq p]; field_simp
theorem reci_zero : reci (ofRat 0) = throw .explicit := by
  rw [reci]
  simp only [from_denom_and_numer_raw, denom_ofRat, numer_ofRat, BigI.is_zero_c]; rfl

end arith

section rounding
variable (p : ℚ)

theorem from_bi_c (k : Int) : from_bi (ofInt k) = ofRat k := by
  rw [from_bi, from_denom_and_numer_raw, BigI.one_c]
  exact mk_c one_pos (by simp) (by simp)

/-- truncation towards zero -/
def qtrunc (p : ℚ) : Int := p.num.tdiv p.den

theorem truncate_bi_c : truncate_bi (ofRat p) = pure (ofInt (qtrunc p)) := by
  rw [truncate_bi, denom_ofRat, numer_ofRat, BigI.div_c (den_ne p), qtrunc]
theorem truncate_c : truncate (ofRat p) = pure (ofRat (qtrunc p)) := by
  rw [truncate, truncate_bi_c, pure_bind, from_bi_c]
theorem truncate_mut_c : truncate_mut (ofRat p) = pure (ofRat (qtrunc p)) := by
  rw [truncate_mut, denom_ofRat, numer_ofRat, BigI.div_mut_c (den_ne p), pure_bind, ← qtrunc,
    ← from_bi_c]; rfl

theorem tmod_eq : p.num.tmod p.den = p.num + p.den * (-qtrunc p) := by
  have := Int.tmod_add_mul_tdiv p.num p.den
  rw [qtrunc, mul_neg]; omega

theorem frac_c : frac (ofRat p) = pure (ofRat (p - qtrunc p)) := by
  rw [frac, denom_ofRat, numer_ofRat, BigI.rem_c (den_ne p), pure_bind, from_denom_and_numer_raw,
    shift_c p (-qtrunc p) (tmod_eq p)]
  push_cast; rw [sub_eq_add_neg]
theorem frac_mut_c : frac_mut (ofRat p) = pure (ofRat (p - qtrunc p)) := by
  rw [frac_mut, denom_ofRat, numer_ofRat, BigI.rem_mut_c (den_ne p), pure_bind,
    shift_c p (-qtrunc p) (tmod_eq p)]
  push_cast; rw [sub_eq_add_neg]
theorem truncate_and_frac_c :
    truncate_and_frac (ofRat p) = pure (ofInt (qtrunc p), ofRat (p - qtrunc p)) := by
  rw [truncate_and_frac, truncate_bi_c, pure_bind, denom_ofRat, BigI.mul_c, pure_bind, numer_ofRat,
    BigI.sub_c, pure_bind, from_denom_and_numer_raw, shift_c p (-qtrunc p) (by ring)]
  push_cast; rw [sub_eq_add_neg]

theorem qtrunc_nonneg (h : 0 ≤ p) : qtrunc p = ⌊p⌋ := by
  rw [qtrunc, Int.tdiv_eq_ediv_of_nonneg (by simpa using h), ← Rat.floor_intCast_div_natCast, Rat.num_div_den]
theorem qtrunc_neg : qtrunc (-p) = -qtrunc p := by
  rw [qtrunc, Rat.neg_num, Rat.neg_den, Int.neg_tdiv, qtrunc]
theorem qtrunc_nonpos (h : p ≤ 0) : qtrunc p = ⌈p⌉ := by
  have := qtrunc_nonneg (-p) (by linarith)
  rw [qtrunc_neg] at this
  rw [Int.floor_neg] at this; omega

theorem isI32_one : IsI32 1 := by unfold IsI32; omega
theorem isI32_two : IsI32 2 := by unfold IsI32; omega

theorem floor_bi_c : floor_bi (ofRat p) = pure (ofInt ⌊p⌋) := by
  rw [floor_bi, is_neg_c]
  by_cases h : p < 0
  · rw [if_pos (by simpa using h), is_integer_c]
    by_cases h2 : p.den = 1
    · rw [if_pos (by simpa using h2), numer_ofRat]
      have h3 : p = (p.num : ℚ) := by
        rw [num_eq, h2]; simp
      have h4 : ⌊p⌋ = p.num := by rw [h3]; simp
      rw [h4]
    · rw [if_neg (by simpa using h2), truncate_bi_c, pure_bind, BigI.sub_i32_c isI32_one (by omega),
        qtrunc_nonpos p h.le]
      congr 2
      have h3 : (⌈p⌉ : ℚ) ≠ p := by
        intro h4; apply h2; rw [← h4]; exact Rat.den_intCast ..
      have h4 : (⌊p⌋ : ℚ) ≠ p := by
        intro h4; apply h2; rw [← h4]; exact Rat.den_intCast ..
      symm
      rw [Int.floor_eq_iff]
      have h5 := Int.le_ceil p
      have h6 := Int.ceil_lt_add_one p
      push_cast
      refine ⟨by linarith, ?_⟩
      have := lt_of_le_of_ne h5 (Ne.symm h3)
      linarith
  · rw [if_neg (by simpa using h), truncate_bi_c, qtrunc_nonneg p (not_lt.1 h)]
theorem floor_c : floor (ofRat p) = pure (ofRat ⌊p⌋) := by
  rw [floor, floor_bi_c, pure_bind, from_bi_c]

end rounding

section pow
variable (p : ℚ)

theorem pow_mk (k : Nat) : (⟨ofInt ((p.den : Int) ^ k), ofInt (p.num ^ k)⟩ : Ratio) = ofRat (p ^ k) := by
  apply mk_c (pow_pos (den_pos' p) k)
  · have : IsCoprime p.num p.den := Int.isCoprime_iff_gcd_eq_one.2 (gcd_num_den p)
    exact Int.isCoprime_iff_gcd_eq_one.1 this.pow
  · push_cast
    have h1 := den_neq p
    rw [num_eq p, mul_pow]; field_simp

theorem pow_i32_nonneg {e : Int} (he : IsI32 e) (h : 0 ≤ e) :
    pow_i32 (ofRat p) e = pure (ofRat (p ^ e)) := by
  have h1 : e.natAbs < 2 ^ 31 := by unfold IsI32 at he; omega
  rw [pow_i32, BigI.i32Abs_c he (by omega), pure_bind, denom_ofRat, numer_ofRat,
    BigI.pow_u32_c h1, pure_bind, BigI.pow_u32_c h1, pure_bind, if_neg (by omega),
    from_denom_and_numer_raw, pow_mk]
  congr 2
  rw [← zpow_natCast, Int.natCast_natAbs, abs_of_nonneg h]

theorem pow_i32_neg {e : Int} (he : IsI32 e) (h : e < 0) (hm : e ≠ -2147483648) (hp : p ≠ 0) :
    pow_i32 (ofRat p) e = pure (ofRat (p ^ e)) := by
  have h1 : e.natAbs < 2 ^ 31 := by unfold IsI32 at he; omega
  rw [pow_i32, BigI.i32Abs_c he hm, pure_bind, denom_ofRat, numer_ofRat,
    BigI.pow_u32_c h1, pure_bind, BigI.pow_u32_c h1, pure_bind, if_pos (by omega),
    from_denom_and_numer_raw, pow_mk, reci_mut, reci_c (pow_ne_zero _ hp)]
  congr 2
  rw [← zpow_natCast, Int.natCast_natAbs, abs_of_neg h, zpow_neg, inv_inv]

theorem pow_i32_mut_eq {e : Int} (he : IsI32 e) (hm : e ≠ -2147483648) :
    pow_i32_mut (ofRat p) e = pow_i32 (ofRat p) e := by
  have h1 : e.natAbs < 2 ^ 31 := by unfold IsI32 at he; omega
  rw [pow_i32, pow_i32_mut, BigI.i32Abs_c he hm, pure_bind, pure_bind, denom_ofRat, numer_ofRat,
    BigI.pow_u32_c h1, pure_bind, BigI.pow_u32_c h1, pure_bind,
    BigI.pow_u32_mut_c h1, pure_bind, BigI.pow_u32_mut_c h1, pure_bind]
  rfl

theorem pow_i32_zero_neg {e : Int} (he : IsI32 e) (h : e < 0) (hm : e ≠ -2147483648) :
    pow_i32 (ofRat 0) e = throw .explicit := by
  have h1 : e.natAbs < 2 ^ 31 := by unfold IsI32 at he; omega
  rw [pow_i32, BigI.i32Abs_c he hm, pure_bind, denom_ofRat, numer_ofRat,
    BigI.pow_u32_c h1, pure_bind, BigI.pow_u32_c h1, pure_bind, if_pos (by omega),
    from_denom_and_numer_raw, pow_mk, reci_mut, zero_pow (by omega), reci_zero]

end pow

section comp
variable (p q : ℚ)

theorem lt_c : lt (ofRat p) (ofRat q) = pure (decide (p < q)) := by
  rw [lt, sub_c, pure_bind, is_neg_c]; simp only [sub_neg]
theorem gt_c : gt (ofRat p) (ofRat q) = pure (decide (q < p)) := by
  rw [gt, sub_c, pure_bind, is_neg_c]; simp only [sub_neg]
theorem leq_c : leq (ofRat p) (ofRat q) = pure (decide (p ≤ q)) := by
  rw [leq, gt_c, pure_bind, ← decide_not]; simp only [not_lt]
theorem geq_c : geq (ofRat p) (ofRat q) = pure (decide (q ≤ p)) := by
  rw [geq, lt_c, pure_bind, ← decide_not]; simp only [not_lt]
theorem eq_c : eq (ofRat p) (ofRat q) = decide (p = q) := by
  rw [eq, denom_ofRat, numer_ofRat, denom_ofRat, numer_ofRat, BigI.eq_c, BigI.eq_c,
    Bool.eq_iff_iff]
  simp only [Bool.and_eq_true, decide_eq_true_eq, Nat.cast_inj]
  constructor
  · rintro ⟨h1, h2⟩; exact Rat.ext h2 h1
  · rintro rfl; exact ⟨rfl, rfl⟩
theorem neq_c : neq (ofRat p) (ofRat q) = decide (p ≠ q) := by
  have : neq (ofRat p) (ofRat q) = !eq (ofRat p) (ofRat q) := rfl
  rw [this, eq_c, ← decide_not]

theorem cross_lt : p.num * q.den < q.num * p.den ↔ p < q := by
  rw [Rat.lt_iff]
theorem compare_cross : compare (p.num * q.den) (q.num * p.den) = compare p q := by
  have e1 := cross_lt p q
  have e2 := cross_lt q p
  rcases lt_trichotomy p q with h | h | h
  · rw [compare_lt_iff_lt.2 h, compare_lt_iff_lt.2 (e1.2 h)]
  · subst h; rw [compare_eq_iff_eq.2 rfl, compare_eq_iff_eq.2 rfl]
  · rw [compare_gt_iff_gt.2 h, compare_gt_iff_gt.2 (e2.2 h)]
theorem comp_c : comp (ofRat p) (ofRat q) = pure (compare p q) := by
  simp only [comp, denom_ofRat, numer_ofRat, BigI.mul_c, pure_bind, BigI.comp_c, compare_cross]

theorem num_lt_den : p.num < p.den ↔ p < 1 := by
  have := cross_lt p 1
  simpa using this
theorem den_lt_num : (p.den : Int) < p.num ↔ 1 < p := by
  have := cross_lt 1 p
  simpa using this
theorem lt_one_c : lt_one (ofRat p) = decide (p < 1) := by
  rw [lt_one, is_neg_c, denom_ofRat, numer_ofRat, BigI.lt_c, Bool.eq_iff_iff]
  simp only [Bool.or_eq_true, decide_eq_true_eq, num_lt_den]
  constructor
  · rintro (h | h) <;> linarith
  · intro h; exact Or.inr h
theorem gt_one_c : gt_one (ofRat p) = decide (1 < p) := by
  rw [gt_one, is_neg_c, denom_ofRat, numer_ofRat, BigI.gt_c, Bool.eq_iff_iff]
  simp only [Bool.and_eq_true, decide_eq_true_eq, den_lt_num, Bool.not_eq_true',
    decide_eq_false_iff_not]
  constructor
  · exact fun h => h.2
  · intro h; exact ⟨by linarith, h⟩

variable {p} {o : Int}
theorem comp_i32_c (ho : IsI32 o) (h' : o ≠ -2147483648) :
    comp_i32 (ofRat p) o = pure (compare p o) := by
  simp only [comp_i32, denom_ofRat, numer_ofRat, BigI.mul_i32_c ho h', pure_bind, BigI.comp_c]
  rw [← compare_cross, Rat.num_intCast, Rat.den_intCast, mul_comm o]; simp
theorem lt_i32_c (ho : IsI32 o) (h' : o ≠ -2147483648) :
    lt_i32 (ofRat p) o = pure (decide (p < o)) := by
  simp only [lt_i32, denom_ofRat, numer_ofRat, BigI.mul_i32_c ho h', pure_bind, BigI.lt_c]
  have := cross_lt p o
  rw [Rat.num_intCast, Rat.den_intCast, mul_comm o] at this; simp at this; simp only [this]
theorem gt_i32_c (ho : IsI32 o) (h' : o ≠ -2147483648) :
    gt_i32 (ofRat p) o = pure (decide (o < p)) := by
  simp only [gt_i32, denom_ofRat, numer_ofRat, BigI.mul_i32_c ho h', pure_bind, BigI.gt_c]
  have := cross_lt o p
  rw [Rat.num_intCast, Rat.den_intCast, mul_comm o] at this; simp at this; simp only [this]
theorem leq_i32_c (ho : IsI32 o) (h' : o ≠ -2147483648) :
    leq_i32 (ofRat p) o = pure (decide (p ≤ o)) := by
  rw [leq_i32, gt_i32_c ho h', pure_bind, ← decide_not]; simp only [not_lt]
theorem geq_i32_c (ho : IsI32 o) (h' : o ≠ -2147483648) :
    geq_i32 (ofRat p) o = pure (decide ((o : ℚ) ≤ p)) := by
  rw [geq_i32, lt_i32_c ho h', pure_bind, ← decide_not]; simp only [not_lt]

variable (p) in
theorem int_of_den (h : p.den = 1) : p = (p.num : ℚ) := by rw [num_eq, h]; simp

theorem eq_i32_c (ho : IsI32 o) (h' : o = -2147483648 → p.den = 1 → 0 ≤ p)
    (hx : p.den = 1 → (p < 0 ↔ o < 0) → |p| < 2 ^ 32) :
    eq_i32 (ofRat p) o = pure (decide (p = o)) := by
  rw [eq_i32, denom_ofRat, numer_ofRat, BigI.is_one_c]
  by_cases h : p.den = 1
  · rw [if_pos (by simpa using h), BigI.eq_i32_c ho]
    · congr 1
      rw [decide_eq_decide]
      conv_rhs => rw [int_of_den p h]
      norm_cast
    · intro h2; have := h' h2 h; simpa using this
    · intro h2
      have h3 := hx h (by rw [← h2]; simp)
      rw [int_of_den p h] at h3
      have : |p.num| < 2 ^ 32 := by exact_mod_cast h3
      rw [Int.abs_eq_natAbs] at this; omega
  · rw [if_neg (by simpa using h)]
    congr 1; symm; rw [decide_eq_false_iff_not]; rintro rfl; exact h (Rat.den_intCast ..)

theorem eq_i32_panics (hd : p.den = 1) (h : p < 0 ↔ o < 0) (hx : 2 ^ 32 ≤ |p|) :
    eq_i32 (ofRat p) o = throw .unwrap := by
  rw [eq_i32, denom_ofRat, numer_ofRat, BigI.is_one_c, if_pos (by simpa using hd),
    BigI.eq_i32_panics]
  · rw [← h]; simp
  · rw [int_of_den p hd] at hx
    have : 2 ^ 32 ≤ |p.num| := by exact_mod_cast hx
    rw [Int.abs_eq_natAbs] at this; omega

end comp

section more
variable (p q : ℚ)

/-- nearest integer, halves away from zero -/
def qround (p : ℚ) : Int := if p < 0 then -⌊-p + 1/2⌋ else ⌊p + 1/2⌋

theorem round_bi_c : round_bi (ofRat p) = pure (ofInt (qround p)) := by
  rw [round_bi, truncate_and_frac_c, pure_bind]
  simp only [numer_ofRat, denom_ofRat]
  rw [BigI.mul_i32_c isI32_two (by omega), pure_bind, BigI.abs_c, BigI.comp_c, is_neg_c]
  set f := p - qtrunc p with hf
  have hff : f.den = p.den ∧ f.num = p.num + p.den * (-qtrunc p) := by
    have h := shift_c p (-qtrunc p) rfl
    have e : p + ((-qtrunc p : Int) : ℚ) = f := by push_cast; rw [hf]; ring
    rw [e] at h
    have h2 := congrArg (fun r : Ratio => ival r.denom) h
    have h3 := congrArg (fun r : Ratio => ival r.numer) h
    simp only [denom_ofRat, numer_ofRat, ival_ofInt] at h2 h3
    exact ⟨by exact_mod_cast h2.symm, h3.symm⟩
  have hlt : |f.num * 2| < (f.den : Int) ↔ |f| * 2 < 1 := by
    have hd : (0 : ℚ) < f.den := by exact_mod_cast f.den_pos
    have h1 : |f| = ((|f.num| : Int) : ℚ) / f.den := by
      push_cast
      rw [num_eq f, abs_mul, Nat.abs_cast]; field_simp
    rw [h1, div_mul_eq_mul_div, div_lt_one hd]
    rw [abs_mul, abs_two]
    norm_cast
  by_cases hp : p < 0
  · have htr : qtrunc p = -⌊-p⌋ := by rw [qtrunc_nonpos p hp.le, Int.floor_neg, neg_neg]
    have hfa : |f| = -p - ⌊-p⌋ := by
      have : f = -(-p - ⌊-p⌋) := by rw [hf, htr]; push_cast; ring
      rw [this, abs_neg, abs_of_nonneg]
      linarith [Int.floor_le (-p)]
    have hr : qround p = -⌊-p + 1/2⌋ := by rw [qround, if_pos hp]
    have a1 := Int.floor_le (-p)
    have a2 := Int.lt_floor_add_one (-p)
    by_cases h : |f| * 2 < 1
    · rw [compare_lt_iff_lt.2 (hlt.2 h)]
      simp only [htr, hr]
      congr 3
      symm; rw [Int.floor_eq_iff]; constructor <;> linarith
    · have hc : compare |f.num * 2| (f.den : Int) ≠ .lt := by
        rw [Ne, compare_lt_iff_lt, hlt]; exact h
      have hg : pure (ofInt (qround p)) =
          (BigI.sub_i32 (ofInt (qtrunc p)) 1) := by
        rw [BigI.sub_i32_c isI32_one (by omega), htr, hr]
        congr 2
        have : ⌊-p + 1/2⌋ = ⌊-p⌋ + 1 := by
          rw [Int.floor_eq_iff]; push_cast; constructor <;> linarith
        omega
      rw [hg]
      split
      · rename_i h2; exact absurd h2 hc
      · rw [if_pos (by simpa using hp)]
  · have hp' := not_lt.1 hp
    have htr : qtrunc p = ⌊p⌋ := qtrunc_nonneg p hp'
    have a1 := Int.floor_le p
    have a2 := Int.lt_floor_add_one p
    have hfa : |f| = p - ⌊p⌋ := by
      rw [hf, htr, abs_of_nonneg (by linarith)]
    have hr : qround p = ⌊p + 1/2⌋ := by rw [qround, if_neg hp]
    by_cases h : |f| * 2 < 1
    · rw [compare_lt_iff_lt.2 (hlt.2 h)]
      simp only [htr, hr]
      congr 2
      symm; rw [Int.floor_eq_iff]; constructor <;> linarith
    · have hc : compare |f.num * 2| (f.den : Int) ≠ .lt := by
        rw [Ne, compare_lt_iff_lt, hlt]; exact h
      have hg : pure (ofInt (qround p)) =
          (BigI.add_i32 (ofInt (qtrunc p)) 1) := by
        rw [BigI.add_i32_c isI32_one (by omega), htr, hr]
        congr 2
        rw [Int.floor_eq_iff]; push_cast; constructor <;> linarith
      rw [hg]
      split
      · rename_i h2; exact absurd h2 hc
      · rw [if_neg (by simpa using hp)]
theorem round_c : round (ofRat p) = pure (ofRat (qround p)) := by
  rw [round, round_bi_c, pure_bind, from_bi_c]

theorem common_denom_c : ∃ x y d : Int, common_denom (ofRat p) (ofRat q) =
    pure (ofInt x, ofInt y, ofInt d) ∧ d = Nat.lcm p.den q.den ∧
      (x : ℚ) / d = p ∧ (y : ℚ) / d = q := by
  have hg : 0 < Nat.gcd p.den q.den := Nat.gcd_pos_of_pos_left _ p.den_pos
  have hg' : ((Nat.gcd p.den q.den : Nat) : Int) ≠ 0 := by exact_mod_cast hg.ne'
  have e1 : (p.den : Int).tdiv (Nat.gcd p.den q.den : Nat) = (p.den / Nat.gcd p.den q.den : Nat) := by
    rw [Int.tdiv_eq_ediv_of_nonneg (by positivity)]; norm_cast
  have e2 : (q.den : Int).tdiv (Nat.gcd p.den q.den : Nat) = (q.den / Nat.gcd p.den q.den : Nat) := by
    rw [Int.tdiv_eq_ediv_of_nonneg (by positivity)]; norm_cast
  have hgd : Int.gcd (p.den : Int) (q.den : Int) = Nat.gcd p.den q.den := rfl
  have a1 : (p.den / Nat.gcd p.den q.den : Nat) * Nat.gcd p.den q.den = p.den :=
    Nat.div_mul_cancel (Nat.gcd_dvd_left ..)
  have a2 : (q.den / Nat.gcd p.den q.den : Nat) * Nat.gcd p.den q.den = q.den :=
    Nat.div_mul_cancel (Nat.gcd_dvd_right ..)
  have hl : Nat.lcm p.den q.den = p.den * (q.den / Nat.gcd p.den q.den) := by
    rw [Nat.lcm, Nat.mul_div_assoc _ (Nat.gcd_dvd_right ..)]
  have hc : common_denom (ofRat p) (ofRat q) = pure
      (ofInt (p.num * (q.den / Nat.gcd p.den q.den : Nat)),
       ofInt (q.num * (p.den / Nat.gcd p.den q.den : Nat)),
       ofInt (p.den * (q.den / Nat.gcd p.den q.den : Nat))) := by
    rw [common_denom]
    simp only [denom_ofRat, numer_ofRat, BigI.gcd_bi_c, pure_bind, hgd, BigI.div_c hg', e1, e2,
      BigI.mul_c]
  generalize p.den / Nat.gcd p.den q.den = u at *
  generalize q.den / Nat.gcd p.den q.den = v at *
  generalize Nat.gcd p.den q.den = g at *
  refine ⟨_, _, _, hc, ?_, ?_, ?_⟩
  · rw [hl]; push_cast; rfl
  all_goals
    have n1 := den_neq p
    have n2 := den_neq q
    have b1 : (u : ℚ) * g = p.den := by exact_mod_cast a1
    have b2 : (v : ℚ) * g = q.den := by exact_mod_cast a2
    have n4 : (v : ℚ) ≠ 0 := by
      intro h; rw [h] at b2; apply n2; rw [← b2]; ring
    push_cast
  · rw [num_eq p]; field_simp
  · rw [num_eq q, div_eq_iff (mul_ne_zero n1 n4), ← b1, ← b2]
    ring

theorem from_i32_c {n : Int} (h : IsI32 n) (h' : n ≠ -2147483648) :
    from_i32 n = pure (ofRat n) := by
  rw [from_i32, BigI.from_i32_c h h', pure_bind, ← from_bi_c]; rfl

theorem gcdI32Loop_eq (a b : Nat) : gcdI32Loop a b = Nat.gcd a b := by
  induction a using Nat.strong_induction_on generalizing b with
  | _ a ih =>
    rw [gcdI32Loop]
    split_ifs with h
    · subst h; simp
    · rw [ih _ (Nat.mod_lt _ (Nat.pos_of_ne_zero h)), Nat.gcd_rec a b]

theorem gcd_i32_c {a b : Int} (ha : IsI32 a) (hb : IsI32 b) (ha' : a ≠ -2147483648)
    (hb' : b ≠ -2147483648) : gcd_i32 a b = pure (Int.gcd a b : Int) := by
  rw [gcd_i32, BigI.i32Abs_c ha ha', pure_bind, BigI.i32Abs_c hb hb', pure_bind, gcdI32Loop_eq]; rfl

theorem divI32Pair_c {d n r : Int} (hr : r ≠ 0) :
    divI32Pair d n r = pure (d.tdiv r, n.tdiv r) := by
  rw [divI32Pair]
  split_ifs with h
  · rfl
  · rw [not_not] at h; rw [h, Int.tdiv_one, Int.tdiv_one]

theorem tdiv_isI32 {a : Int} (r : Int) (ha : IsI32 a) (ha' : a ≠ -2147483648) :
    IsI32 (a.tdiv r) ∧ a.tdiv r ≠ -2147483648 := by
  have : (a.tdiv r).natAbs ≤ a.natAbs := by
    rw [← BigI.natAbs_tdiv']; exact Nat.div_le_self ..
  unfold IsI32 at *
  omega

theorem from_dn_i32_c {d n : Int} (hd : IsI32 d) (hn : IsI32 n) (hd' : d ≠ -2147483648)
    (hn' : n ≠ -2147483648) (h0 : d ≠ 0) :
    from_denom_and_numer_i32 d n = pure (ofRat ((n : ℚ) / d)) := by
  have hg : 0 < Int.gcd d n := Int.gcd_pos_of_ne_zero_left _ h0
  have hg0 : ((Int.gcd d n : Nat) : Int) ≠ 0 := by omega
  have hgq : ((Int.gcd d n : Nat) : ℚ) ≠ 0 := by exact_mod_cast hg.ne'
  rw [from_denom_and_numer_i32, gcd_i32_c hd hn hd' hn', pure_bind, divI32Pair_c hg0, pure_bind]
  have b1 := tdiv_isI32 (Int.gcd d n : Nat) hd hd'
  have b2 := tdiv_isI32 (Int.gcd d n : Nat) hn hn'
  have hv : ((n.tdiv (Int.gcd d n : Nat) : Int) : ℚ) / (d.tdiv (Int.gcd d n : Nat) : Int) = n / d := by
    rw [Int.tdiv_eq_ediv_of_dvd (Int.gcd_dvd_left ..), Int.tdiv_eq_ediv_of_dvd (Int.gcd_dvd_right ..),
      Int.cast_div (Int.gcd_dvd_left ..) (by exact_mod_cast hgq),
      Int.cast_div (Int.gcd_dvd_right ..) (by exact_mod_cast hgq), Int.cast_natCast]
    have : (d : ℚ) ≠ 0 := by exact_mod_cast h0
    field_simp
  have hc : Int.gcd (n.tdiv (Int.gcd d n : Nat)) (d.tdiv (Int.gcd d n : Nat)) = 1 := by
    rw [Int.tdiv_eq_ediv_of_dvd (Int.gcd_dvd_left ..), Int.tdiv_eq_ediv_of_dvd (Int.gcd_dvd_right ..),
      Int.gcd_comm]
    exact Int.gcd_div_gcd_div_gcd hg
  have h1 : d.tdiv (Int.gcd d n : Nat) ≠ 0 := by
    intro h; rw [h] at hv
    rw [Int.tdiv_eq_ediv_of_dvd (Int.gcd_dvd_left ..)] at h
    have := Int.eq_mul_of_ediv_eq_right (Int.gcd_dvd_left ..) h
    rw [mul_zero] at this; exact h0 this
  generalize d.tdiv (Int.gcd d n : Nat) = d2 at *
  generalize n.tdiv (Int.gcd d n : Nat) = n2 at *
  simp only []
  rw [negI32Pair]
  by_cases h : d2 < 0
  · rw [if_pos h, if_neg (by omega), pure_bind]
    have i1 : IsI32 (-d2) := by have := b1.1; unfold IsI32 at *; omega
    have i2 : IsI32 (-n2) := by have := b2.1; unfold IsI32 at *; omega
    rw [BigI.from_i32_c i1 (by omega), pure_bind, BigI.from_i32_c i2 (by have := b2.1; unfold IsI32 at *; omega), pure_bind]
    rw [from_denom_and_numer_raw, mk_c (by omega)]
    · rw [Int.gcd_neg, Int.neg_gcd]; exact hc
    · rw [← hv]; push_cast; rw [neg_div_neg_eq]
  · rw [if_neg h, pure_bind, BigI.from_i32_c b1.1 b1.2, pure_bind, BigI.from_i32_c b2.1 b2.2, pure_bind,
      from_denom_and_numer_raw, mk_c (by omega) hc hv]

end more

end Ratio
end Hmath
