import Verif.Proofs.Fp192Trunc
import Verif.Props.Ratio
import Verif.Props.Convert
import Mathlib.Data.Sign.Basic
import Mathlib.Algebra.Order.Round

/-!
# Properties C39-C43, C59: 192-bit floating point numbers

`FValid x` says that `digits` is a `u128` and `exp` a `u64`; `fval x` is the number the bit pattern stands for.
-/

namespace Hmath
namespace Props

open F192

/-! ## C39: comparison -/

/-- Comparison is the order of the numbers, for all bit patterns. -/
theorem C39_cmp {x y : F192} (hx : FValid x) (hy : FValid y) : F192.cmp x y = compare (fval x) (fval y) :=
  cmp_c hx hy

example : F192.cmp ⟨2 ^ 127 + 5, 10⟩ ⟨2 ^ 127 + 5, 11⟩ = .gt ∧ FValid ⟨2 ^ 127 + 5, 10⟩ := by decide

/-- Different bit patterns are different numbers. -/
theorem C39_eq {x y : F192} (hx : FValid x) (hy : FValid y) : x = y ↔ fval x = fval y :=
  ⟨fun h => by rw [h], fval_inj hx hy⟩

example : fval ⟨0, 2 ^ 48 - 127⟩ = 1 := by
  rw [show (⟨0, 2 ^ 48 - 127⟩ : F192) = mk' false 170141183460469231731687303715884105728 281474976710529 from rfl,
    fval_one]; rfl

/-- The operators. -/
theorem C39_ops {x y : F192} (hx : FValid x) (hy : FValid y) :
    (F192.lt x y = true ↔ fval x < fval y) ∧ (F192.gt x y = true ↔ fval y < fval x) ∧
    (F192.le x y = true ↔ fval x ≤ fval y) ∧ (F192.ge x y = true ↔ fval y ≤ fval x) := by
  rw [lt_c hx hy, gt_c hx hy, le_c hx hy, ge_c hx hy]
  simp only [decide_eq_true_eq, and_self]

example : F192.lt ⟨3, 7⟩ ⟨2, 8⟩ = true ∧ FValid ⟨3, 7⟩ ∧ FValid ⟨2, 8⟩ := by decide

/-! ## C40: machine integers -/

/-- Every unsigned machine integer converts exactly. -/
theorem C40_from_uint {n : Nat} (h : n < 2 ^ 128) : ∃ x, from_uint n = pure x ∧ FValid x ∧ fval x = n :=
  from_uint_c (by omega)

example : ∃ x, from_uint (2 ^ 100 + 1) = pure x ∧ FValid x ∧ fval x = ((2 ^ 100 + 1 : ℕ) : ℚ) := C40_from_uint (by norm_num)

/-- Every signed machine integer but the smallest `i128` converts exactly. -/
theorem C40_from_int_partial {n : Int} (h1 : -2 ^ 127 < n) (h2 : n < 2 ^ 127) :
    ∃ x, from_int n = pure x ∧ FValid x ∧ fval x = n :=
  from_int_c (by omega) (by omega)

example : from_uint 12 = pure ⟨2 ^ 126, 2 ^ 48 - 124⟩ ∧
    from_int (-3) = pure ⟨2 ^ 127 + 2 ^ 126, 2 ^ 48 - 126⟩ := ⟨rfl, rfl⟩

/-- The smallest `i128` panics. -/
theorem C40_from_int_counterexample : Panics (from_int (-2 ^ 127)) := ⟨.overflow, rfl⟩

private theorem truncQ_pos {q : ℚ} (h : 0 ≤ q) : truncQ q = ⌊q⌋ := by rw [truncQ, if_pos h]
private theorem truncQ_neg {q : ℚ} : truncQ (-q) = -truncQ q := by
  unfold truncQ
  rcases lt_trichotomy q 0 with h | rfl | h
  · rw [if_pos (by linarith), if_neg (by linarith), Int.floor_neg]
  · simp
  · rw [if_neg (by linarith), if_pos (by linarith), Int.ceil_neg]
private theorem truncQ_sgn {s : Bool} {q : ℚ} (h : 0 ≤ q) : ((truncQ (sgn s * q) : ℤ) : ℚ) = sgn s * ⌊q⌋ := by
  cases s
  · rw [sgn_false, one_mul, one_mul, truncQ_pos h]
  · rw [sgn_true, neg_one_mul, truncQ_neg, truncQ_pos h]; push_cast; ring

private theorem to_u128_pos {m e : Nat} (h : Nrm m) (h0 : ¬Z false m e) (h1 : 1 ≤ mg m e) : to_u128 (mk' false m e) =
    pure (if ⌊mg m e⌋ < 2 ^ 128 then some ⌊mg m e⌋.toNat else none) := by
  rw [to_u128_c h h0]
  have hs : ¬e + 128 ≤ 281474976710656 := fun hc => by
    have := mg_small h hc
    linarith
  by_cases hb : 281474976710656 < e
  · have := mg_big h hb
    rw [if_pos hb, if_neg]
    rw [not_lt, Int.le_floor]; push_cast; exact this
  · rw [if_neg hb, if_neg hs, floor_mg (by omega)]
    have : m / 2 ^ (281474976710656 - e) < 2 ^ 128 := lt_of_le_of_lt (Nat.div_le_self _ _) (by have := h.2; omega)
    rw [if_pos (by exact_mod_cast this)]
    rfl

/-- Conversion to an unsigned type truncates and rejects what is out of range, unless the number is strictly between
`-1` and `1`. -/
theorem C40_to_uint_partial {x : F192} {hi : Nat} (hx : FValid x) (hh : hi < 2 ^ 128) (h : fval x = 0 ∨ 1 ≤ |fval x|) :
    to_uint hi x = pure (if 0 ≤ truncQ (fval x) ∧ truncQ (fval x) ≤ hi then some (truncQ (fval x)).toNat else none) := by
  rcases h with h | h
  · rw [(fval_eq_zero hx).1 h, fval_zero]
    have : truncQ 0 = 0 := by decide
    rw [this, if_pos (by omega)]
    rfl
  · obtain ⟨s, m, e, hm, he, hz, rfl, hv⟩ := mk_of_not_zero hx (by
      intro hc; rw [hc] at h; norm_num at h)
    rw [hv, abs_mul, abs_sgn, one_mul, abs_of_pos (mg_pos hm)] at h
    rw [to_uint, hv]
    have hp := mg_pos (e := e) hm
    have hf : 1 ≤ ⌊mg m e⌋ := by rw [Int.le_floor]; push_cast; exact h
    cases s
    · rw [to_u128_pos hm hz h, pure_bind, sgn_false, one_mul, truncQ_pos (le_of_lt hp)]
      generalize ⌊mg m e⌋ = z at *
      by_cases hc : z ≤ hi
      · rw [if_pos (by omega), if_pos (by omega)]
        dsimp only
        rw [if_pos (by omega)]
      · rw [if_neg (show ¬(0 ≤ z ∧ z ≤ hi) from fun h => hc h.2)]
        by_cases hb : z < 2 ^ 128
        · rw [if_pos hb]
          dsimp only
          rw [if_neg (by omega)]
        · rw [if_neg hb]
    · have : to_u128 (mk' true m e) = pure none := by
        rw [to_u128, is_zero_mk hm, is_neg_mk hm]; rfl
      rw [this, pure_bind, sgn_true, neg_one_mul, truncQ_neg, truncQ_pos (le_of_lt hp), if_neg (by omega)]

example : to_uint 255 ⟨2 ^ 126 + 2 ^ 120, 2 ^ 48 - 124⟩ = pure (some 12) ∧ to_uint 255 ⟨0, 2 ^ 48 - 119⟩ = pure none :=
  ⟨rfl, rfl⟩

/-- A positive number below one panics instead of giving zero, whatever the type. -/
theorem C40_to_uint_panics {x : F192} {hi : Nat} (hx : FValid x) (h0 : 0 < fval x) (h1 : fval x < 1) :
    Panics (to_uint hi x) := by
  obtain ⟨s, m, e, hm, he, hz, rfl, hv⟩ := mk_of_not_zero hx h0.ne'
  have hp := mg_pos (e := e) hm
  rw [hv] at h0 h1
  cases s
  · rw [sgn_false, one_mul] at h1
    have hs : e + 128 ≤ 281474976710656 := by
      by_contra hc
      have := mg_one_le (e := e) hm (by omega)
      linarith
    refine ⟨.overflow, ?_⟩
    rw [to_uint, to_u128_c hm hz, if_neg (by omega), if_pos hs]; rfl
  · rw [sgn_true] at h0; linarith

private theorem ex_pow (s : Bool) (k : ℕ) (hk : k ≤ 200) : fval (mk' s 170141183460469231731687303715884105728 (281474976710656 - k)) = sgn s * (2 ^ 127 / 2 ^ k) := by
  have h := fval_mk (s := s) (m := 170141183460469231731687303715884105728) (e := 281474976710656 - k) ⟨by norm_num, by norm_num⟩ (nz_exp (by omega))
  rw [mg_coeff_sub (by omega)] at h
  exact h.trans (by norm_num)

private theorem ex_one : fval ⟨0, 2 ^ 48 - 127⟩ = 1 := (ex_pow false 127 (by norm_num)).trans (by norm_num [sgn])
private theorem ex_half : fval ⟨0, 2 ^ 48 - 128⟩ = 1 / 2 := (ex_pow false 128 (by norm_num)).trans (by norm_num [sgn])
private theorem ex_neg_half : fval ⟨2 ^ 127, 2 ^ 48 - 128⟩ = -1 / 2 := (ex_pow true 128 (by norm_num)).trans (by norm_num [sgn])

/-- one half -/
example : Panics (to_uint 255 ⟨0, 2 ^ 48 - 128⟩) := by
  have h : fval ⟨0, 2 ^ 48 - 128⟩ = 1 / 2 := ex_half
  exact C40_to_uint_panics (by decide) (by rw [h]; norm_num) (by rw [h]; norm_num)

/-- `0.5` cannot be converted to `u64`. -/
theorem C40_to_uint_counterexample : Panics (to_uint (2 ^ 64 - 1) ⟨0, 2 ^ 48 - 128⟩) ∧
    fval ⟨0, 2 ^ 48 - 128⟩ = 1 / 2 := by
  refine ⟨⟨.overflow, rfl⟩, ?_⟩
  rw [show (⟨0, 2 ^ 48 - 128⟩ : F192) = mk' false 170141183460469231731687303715884105728 281474976710528 from rfl,
    fval_half]; rfl

private theorem to_i128_mk {s : Bool} {m e : Nat} (h : Nrm m) (h0 : ¬Z s m e) (h1 : 1 ≤ mg m e) : to_i128 (mk' s m e) =
    pure (if ⌊mg m e⌋ < 2 ^ 127 then some (if s then -⌊mg m e⌋ else ⌊mg m e⌋) else none) := by
  have hz : ¬Z false m e := by
    rintro ⟨-, -, rfl⟩
    have := mg_small (e := 0) h (by omega)
    linarith
  have hf : 1 ≤ ⌊mg m e⌋ := by rw [Int.le_floor]; push_cast; exact h1
  have key := to_u128_pos h hz h1
  rw [to_i128, is_neg_mk h]
  cases s
  · rw [if_neg (by simp), key, pure_bind]
    generalize ⌊mg m e⌋ = z at *
    by_cases hb : z < 2 ^ 128
    · rw [if_pos hb]
      dsimp only
      by_cases hc : z < 2 ^ 127
      · rw [if_pos hc, if_pos (by omega), if_neg (by simp)]
        exact congrArg (fun x => pure (some x)) (by omega)
      · rw [if_neg hc, if_neg (by omega)]
    · rw [if_neg hb, if_neg (by omega)]
  · rw [if_pos rfl, neg_mk h h0, Bool.not_true, key, pure_bind]
    generalize ⌊mg m e⌋ = z at *
    by_cases hb : z < 2 ^ 128
    · rw [if_pos hb]
      dsimp only
      by_cases hc : z < 2 ^ 127
      · rw [if_pos hc, if_pos (by omega), if_pos rfl]
        exact congrArg (fun x => pure (some x)) (by omega)
      · rw [if_neg hc, if_neg (by omega)]
    · rw [if_neg hb, if_neg (by omega)]

/-- Conversion to a signed type truncates and rejects what is out of range, unless the number is strictly between `-1`
and `1`, or is `-2^127`. -/
theorem C40_to_int_partial {x : F192} {lo hi : Int} (hx : FValid x) (hl : -2 ^ 127 < lo) (hl0 : lo ≤ 0) (hh0 : 0 ≤ hi)
    (hh : hi < 2 ^ 127) (h : fval x = 0 ∨ 1 ≤ |fval x|) :
    to_int lo hi x = pure (if lo ≤ truncQ (fval x) ∧ truncQ (fval x) ≤ hi then some (truncQ (fval x)) else none) := by
  rcases h with h | h
  · rw [(fval_eq_zero hx).1 h, fval_zero]
    have h2 : truncQ 0 = 0 := by decide
    have h1 : to_i128 ZERO = pure (some 0) := rfl
    rw [h2, to_int, h1, pure_bind]
  · obtain ⟨s, m, e, hm, he, hz, rfl, hv⟩ := mk_of_not_zero hx (by
      intro hc; rw [hc] at h; norm_num at h)
    rw [hv, abs_mul, abs_sgn, one_mul, abs_of_pos (mg_pos hm)] at h
    have hp := mg_pos (e := e) hm
    have ht : truncQ (fval (mk' s m e)) = if s then -⌊mg m e⌋ else ⌊mg m e⌋ := by
      rw [hv]
      cases s
      · rw [sgn_false, one_mul, truncQ_pos (le_of_lt hp)]; rfl
      · rw [sgn_true, neg_one_mul, truncQ_neg, truncQ_pos (le_of_lt hp)]; rfl
    rw [ht, to_int, to_i128_mk hm hz h, pure_bind]
    have hf : 1 ≤ ⌊mg m e⌋ := by rw [Int.le_floor]; push_cast; exact h
    generalize ⌊mg m e⌋ = z at *
    by_cases hb : z < 2 ^ 127
    · rw [if_pos hb]
    · rw [if_neg hb, if_neg]
      cases s
      · rw [if_neg (by simp)]; omega
      · rw [if_pos rfl]; omega

example : to_int (-128) 127 ⟨2 ^ 127 + 2 ^ 126 + 2 ^ 123, 2 ^ 48 - 126⟩ = pure (some (-3)) := rfl

/-- `-2^127` is rejected by the conversion to `i128`, and `0.5` and `-0.5` panic. -/
theorem C40_to_int_counterexample :
    to_int (-2 ^ 127) (2 ^ 127 - 1) ⟨2 ^ 127, 2 ^ 48⟩ = pure none ∧ fval ⟨2 ^ 127, 2 ^ 48⟩ = -2 ^ 127 ∧
    Panics (to_int (-2 ^ 31) (2 ^ 31 - 1) ⟨0, 2 ^ 48 - 128⟩) ∧
    Panics (to_int (-2 ^ 31) (2 ^ 31 - 1) ⟨2 ^ 127, 2 ^ 48 - 128⟩) := by
  refine ⟨rfl, ?_, ⟨.overflow, rfl⟩, ⟨.overflow, rfl⟩⟩
  rw [show (⟨2 ^ 127, 2 ^ 48⟩ : F192) = mk' true 170141183460469231731687303715884105728 281474976710656 from rfl,
    F192.fval_neg nrm_S, mg_eq, ulp_coeff]
  norm_num

/-- Integers survive the round trip. -/
theorem C40_round_trip {n : Nat} {hi : Nat} (h : n ≤ hi) (hh : hi < 2 ^ 128) :
    (from_uint n >>= to_uint hi) = pure (some n) := by
  obtain ⟨x, h1, h2, h3⟩ := C40_from_uint (n := n) (by omega)
  have ht : truncQ (n : ℚ) = n := by rw [truncQ_pos (by positivity), Int.floor_natCast]
  rw [h1, pure_bind, C40_to_uint_partial h2 hh, h3, ht, if_pos (by omega)]
  · rfl
  · rw [h3]
    rcases Nat.eq_zero_or_pos n with rfl | h0
    · left; norm_num
    · right
      rw [abs_of_nonneg (by positivity)]
      exact_mod_cast h0

example : (from_uint 200 >>= to_uint 255) = pure (some 200) := C40_round_trip (by norm_num) (by norm_num)

theorem C40_round_trip_int {n lo hi : Int} (h1 : lo ≤ n) (h2 : n ≤ hi) (hl : -2 ^ 127 < lo) (hl0 : lo ≤ 0) (hh0 : 0 ≤ hi)
    (hh : hi < 2 ^ 127) : (from_int n >>= to_int lo hi) = pure (some n) := by
  obtain ⟨x, a1, a2, a3⟩ := C40_from_int_partial (n := n) (by omega) (by omega)
  have ht : truncQ (n : ℚ) = n := by
    unfold truncQ
    split_ifs
    · exact Int.floor_intCast n
    · exact Int.ceil_intCast n
  rw [a1, pure_bind, C40_to_int_partial a2 hl hl0 hh0 hh, a3, ht, if_pos ⟨h1, h2⟩]
  rw [a3]
  rcases eq_or_ne n 0 with rfl | h0
  · left; norm_num
  · right
    have : 1 ≤ |n| := Int.one_le_abs h0
    exact_mod_cast this

example : (from_int (-7) >>= to_int (-128) 127) = pure (some (-7)) := rfl

/-! ## C41: arithmetic -/

/-- `z` has the sign of `v` and is within `ε` of it, relatively. -/
def Close (z : F192) (v ε : ℚ) : Prop :=
  FValid z ∧ SignType.sign (fval z) = SignType.sign v ∧ |fval z - v| ≤ ε * |v|

/-- `z` is `v` cut off: no number of the format between `z` and `v` is nearer to `v`. -/
def Truncates (z : F192) (v : ℚ) : Prop :=
  FValid z ∧ SignType.sign (fval z) = SignType.sign v ∧ |fval z| ≤ |v| ∧
    ∀ w, FValid w → |fval w| ≤ |v| → |fval w| ≤ |fval z|

/-- `z` has the sign of `v`, and no number of the format is nearer to `v`. -/
def Nearest (z : F192) (v : ℚ) : Prop :=
  FValid z ∧ SignType.sign (fval z) = SignType.sign v ∧ ∀ w, FValid w → |fval z - v| ≤ |fval w - v|

/-- Zero, or an exponent less than `2^32` in magnitude. -/
def InRange (x : F192) : Prop := x = ZERO ∨ (2 ^ 48 - 2 ^ 32 < x.exp ∧ x.exp < 2 ^ 48 + 2 ^ 32)

/-- Rounding `v` to 128 bits does not reach the next power of two. -/
def NoCarry (v : ℚ) : Prop := ∀ k : ℤ, |v| < (2 ^ 128 - 1 / 2) * 2 ^ k ∨ 2 ^ 128 * 2 ^ k ≤ |v|

private theorem sign_sgn {s : Bool} {p q : ℚ} (hp : 0 < p) (hq : 0 < q) :
    SignType.sign (sgn s * p) = SignType.sign (sgn s * q) := by
  rw [sign_mul, sign_mul, sign_pos hp, sign_pos hq]

private theorem trunc_err {v : ℚ} {m e : Nat} (h : Nrm m) (ht : Trunc v m e) : 0 < v ∧ |mg m e - v| ≤ 1 / 2 ^ 127 * v := by
  have hp := mg_pos (e := e) h
  obtain ⟨h1, h2⟩ := ht
  have hu := ulp_pos e
  have hm : (2 ^ 127 : ℚ) ≤ m := by
    have : 2 ^ 127 ≤ m := by have := h.1; omega
    exact_mod_cast this
  have h3 : 2 ^ 127 * ulp e ≤ mg m e := by rw [mg_eq]; nlinarith
  refine ⟨by linarith, ?_⟩
  rw [abs_le]
  constructor <;> linarith

theorem close_trunc {s : Bool} {v : ℚ} {m e : Nat} (h : Nrm m) (he : e < 18446744073709551616) (hz : ¬Z s m e)
    (ht : Trunc v m e) : Close (mk' s m e) (sgn s * v) (1 / 2 ^ 127) := by
  obtain ⟨h1, h2⟩ := trunc_err h ht
  refine ⟨valid_mk h he, ?_, ?_⟩
  · rw [fval_mk h hz]; exact sign_sgn (mg_pos h) h1
  · rw [fval_mk h hz, ← mul_sub, abs_mul, abs_mul, abs_sgn, one_mul, one_mul, abs_of_pos h1]
    exact h2

theorem truncates_trunc {s : Bool} {v : ℚ} {m e : Nat} (h : Nrm m) (he : e < 18446744073709551616)
    (hz : ¬Z s m e) (ht : Trunc v m e) : Truncates (mk' s m e) (sgn s * v) := by
  obtain ⟨h1, h2⟩ := trunc_err h ht
  refine ⟨valid_mk h he, ?_, ?_, fun w hw hle => ?_⟩
  · rw [fval_mk h hz]; exact sign_sgn (mg_pos h) h1
  · rw [abs_fval h hz, abs_mul, abs_sgn, one_mul, abs_of_pos h1]; exact ht.1
  · rw [abs_mul, abs_sgn, one_mul, abs_of_pos h1] at hle
    rw [abs_fval h hz]
    by_cases hw0 : fval w = 0
    · rw [hw0, _root_.abs_zero]; exact le_of_lt (mg_pos h)
    · obtain ⟨s', m', e', hm', he', hz', rfl, -⟩ := mk_of_not_zero hw hw0
      rw [abs_fval hm' hz'] at hle ⊢
      exact mg_gap h hm' ht.2 hle

private theorem close_exact {z : F192} {v ε : ℚ} (h : FValid z) (hv : fval z = v) (hε : 0 ≤ ε) : Close z v ε := by
  refine ⟨h, by rw [hv], ?_⟩
  rw [hv, sub_self, _root_.abs_zero]
  positivity

private theorem truncates_exact {z : F192} {v : ℚ} (h : FValid z) (hv : fval z = v) : Truncates z v :=
  ⟨h, by rw [hv], by rw [hv], fun w _ hle => by rw [hv]; exact hle⟩

theorem mul_nonneg_sgn {a b : Bool} {p q : ℚ} (hp : 0 < p) (hq : 0 < q) (h : 0 ≤ sgn a * p * (sgn b * q)) :
    a = b := by
  have hpq := mul_pos hp hq
  cases a <;> cases b
  · rfl
  · rw [sgn_false, sgn_true] at h; nlinarith
  · rw [sgn_false, sgn_true] at h; nlinarith
  · rfl

/-- The number nearest to zero; its negative is the bit pattern of zero. -/
def negTiny : F192 := ⟨2 ^ 127, 0⟩

theorem tiny_iff {m e : Nat} (hm : Nrm m) (h : mk' true m e ≠ negTiny) : ¬Z false m e := by
  rintro ⟨-, rfl, rfl⟩
  exact h rfl

private theorem add_zero_right {y : F192} (hy : FValid y) (ht : y ≠ negTiny) :
    F192.add ZERO y = pure y ∧ F192.add y ZERO = pure y := by
  obtain ⟨s, m, e, hm, he, rfl⟩ := exists_mk hy
  cases s
  · refine ⟨add_zero_left _ (is_neg_mk hm), ?_⟩
    rw [F192.add, is_neg_mk hm, show is_neg ZERO = false from rfl, if_neg (by simp), is_zero_eq]
    by_cases h : mk' false m e = ZERO
    · rw [h]; rfl
    · rw [if_neg (by simpa using h)]; rfl
  · have hz := tiny_iff hm ht
    have hn : neg (mk' true m e) = mk' false m e := neg_mk hm nz_true
    have hn' : neg (mk' false m e) = mk' true m e := neg_mk hm hz
    have e1 := sub_zero_left (mk' false m e) (is_neg_mk hm)
    rw [hn'] at e1
    constructor
    · rw [F192.add, is_neg_mk hm, show is_neg ZERO = false from rfl, if_pos (by decide), if_neg (by decide), hn, e1]
    · rw [F192.add, is_neg_mk hm, show is_neg ZERO = false from rfl, if_pos (by decide), if_pos rfl, hn, e1]

/-- The sum of two numbers of the same sign is the exact sum cut off to 128 bits; the relative error is at most
`2^-127`. -/
theorem C41_add_same {x y : F192} (hx : FValid x) (hy : FValid y) (hs : 0 ≤ fval x * fval y)
    (h1 : x.exp < 2 ^ 64 - 1) (h2 : y.exp < 2 ^ 64 - 1) (t1 : x ≠ negTiny) (t2 : y ≠ negTiny) :
    ∃ z, F192.add x y = pure z ∧ Truncates z (fval x + fval y) ∧ Close z (fval x + fval y) (1 / 2 ^ 127) := by
  by_cases zx : fval x = 0
  · rw [(fval_eq_zero hx).1 zx, (add_zero_right hy t2).1, fval_zero, zero_add]
    exact ⟨_, rfl, truncates_exact hy rfl, close_exact hy rfl (by norm_num)⟩
  by_cases zy : fval y = 0
  · rw [(fval_eq_zero hy).1 zy, (add_zero_right hx t1).2, fval_zero, add_zero]
    exact ⟨_, rfl, truncates_exact hx rfl, close_exact hx rfl (by norm_num)⟩
  obtain ⟨s, m, e, hm, he, hz, rfl, hv⟩ := mk_of_not_zero hx zx
  obtain ⟨s', m', e', hm', he', hz', rfl, hv'⟩ := mk_of_not_zero hy zy
  rw [hv, hv'] at hs
  have := mul_nonneg_sgn (mg_pos hm) (mg_pos hm') hs
  subst this
  rw [mk_exp] at h1 h2
  rcases add_same hm hm' he he' hz hz' with ⟨-, hc⟩ | ⟨m2, e2, a1, a2, -, -, -, a6, a7, a8⟩
  · omega
  · rw [hv, hv', ← mul_add, a7]
    exact ⟨_, rfl, truncates_trunc a1 a2 a6 a8, close_trunc a1 a2 a6 a8⟩

example : F192.add ⟨0, 2 ^ 48 - 127⟩ ⟨2 ^ 126, 2 ^ 48 - 127⟩ = pure ⟨2 ^ 125, 2 ^ 48 - 126⟩ := by
  rw [F192.add]; rfl

/-- The exponent of the sum overflows. -/
theorem C41_add_counterexample : Panics (F192.add MAX MAX) := by
  refine ⟨.overflow, ?_⟩
  rw [F192.add]; rfl

/-! ### rationals -/

private theorem ulp_zpow (e : Nat) : ulp e = 2 ^ ((e : ℤ) - 281474976710656) := rfl

private theorem from_ratio_nearest {v : ℚ} (hlo : Q128 * ulp 0 ≤ |v|) (hhi : |v| < Q128 * ulp 18446744073709551615)
    (hc : NoCarry v) : ∃ K e, Nrm K ∧ e < 18446744073709551616 ∧ 0 < e ∧
      from_ratio (ofRat v) = pure (mk' (decide (v < 0)) K e) ∧ |mg K e - (|v|)| ≤ ulp e / 2 ∧ 2 ^ 127 * ulp e ≤ |v| ∧
      ∀ w, FValid w → |mg K e - (|v|)| ≤ |(|fval w|) - (|v|)| := by
  have hu0 := ulp_pos 0
  have h0 : v ≠ 0 := by
    rintro rfl
    rw [_root_.abs_zero] at hlo
    linarith
  obtain ⟨n, e, n1, n2, n3, n4, n5⟩ := from_ratio_c h0 (by linarith) hhi
  have hu := ulp_pos e
  have he0 : 0 < e := by
    by_contra hcc
    rw [show e = 0 by omega] at n4
    nlinarith
  have hn : n < 2 ^ 128 - 1 / 2 := by
    rcases hc ((e : ℤ) - 281474976710656) with h | h
    · rw [← ulp_zpow, n4] at h
      exact lt_of_mul_lt_mul_right h (le_of_lt hu)
    · rw [← ulp_zpow, n4] at h
      have := le_of_mul_le_mul_right h hu
      norm_num at this
      linarith
  obtain ⟨r1, r2⟩ := round_bounds n1 n2
  have r3 : ⌊n + 1 / 2⌋ < 340282366920938463463374607431768211456 := by
    rw [Int.floor_lt]; push_cast; norm_num at hn; linarith
  have hround : ∀ z : ℤ, |(⌊n + 1 / 2⌋ : ℚ) - n| ≤ |(z : ℚ) - n| := fun z => by
    have := round_le n z
    rw [round_eq, abs_sub_comm, abs_sub_comm n] at this
    exact this
  have hK : ((⌊n + 1 / 2⌋.toNat : Nat) : ℚ) = ⌊n + 1 / 2⌋ := by
    have : ((⌊n + 1 / 2⌋.toNat : Nat) : ℤ) = ⌊n + 1 / 2⌋ := Int.toNat_of_nonneg (by omega)
    exact_mod_cast this
  have hd : |mg ⌊n + 1 / 2⌋.toNat e - (|v|)| = |(⌊n + 1 / 2⌋ : ℚ) - n| * ulp e := by
    rw [n4, mg_eq, hK, ← sub_mul, abs_mul, abs_of_pos hu]
  have hhalf : |(⌊n + 1 / 2⌋ : ℚ) - n| ≤ 1 / 2 := by
    have a1 := Int.floor_le (n + 1 / 2)
    have a2 := Int.lt_floor_add_one (n + 1 / 2)
    rw [abs_le]; constructor <;> linarith
  refine ⟨⌊n + 1 / 2⌋.toNat, e, ⟨by omega, by omega⟩, n3, he0, ?_, ?_, ?_, ?_⟩
  · rw [n5, roundMk, if_neg (by omega)]
  · rw [hd]; nlinarith
  · rw [n4]; norm_num; nlinarith
  · intro w hw
    rw [hd, n4]
    by_cases hle : |fval w| ≤ Q127 * ulp e
    · have h1 := hround 170141183460469231731687303715884105728
      push_cast at h1
      rw [abs_of_nonpos (by linarith : (170141183460469231731687303715884105728 : ℚ) - n ≤ 0)] at h1
      rw [abs_of_nonpos (show |fval w| - n * ulp e ≤ 0 by nlinarith)]
      nlinarith
    · have hw0 : fval w ≠ 0 := by
        intro hcc
        rw [hcc, _root_.abs_zero] at hle
        exact hle (by positivity)
      obtain ⟨s', m', e', hm', he', hz', rfl, -⟩ := mk_of_not_zero hw hw0
      rw [abs_fval hm' hz'] at hle ⊢
      have hee : e ≤ e' := by
        by_contra hcc
        apply hle
        have h1 := ulp_mono (show e' + 1 ≤ e by omega)
        rw [ulp_succ] at h1
        have h2 : (m' : ℚ) < Q128 := by
          have : (m' : ℚ) < ((340282366920938463463374607431768211456 : Nat) : ℚ) := Nat.cast_lt.2 hm'.2
          push_cast at this; exact this
        have h3 := ulp_pos e'
        rw [mg_eq]; nlinarith
      have h1 := ulp_add e (e' - e)
      rw [show e + (e' - e) = e' by omega] at h1
      have h2 : mg m' e' = ((m' * 2 ^ (e' - e) : ℤ) : ℚ) * ulp e := by
        rw [mg_eq, h1]; push_cast; ring
      rw [h2, ← sub_mul, abs_mul, abs_of_pos hu]
      exact mul_le_mul_of_nonneg_right (hround _) (le_of_lt hu)

private theorem nearest_of {v : ℚ} {K e : Nat} (hv : v ≠ 0) (hK : Nrm K) (he : e < 18446744073709551616) (h0 : 0 < e)
    (h1 : |mg K e - (|v|)| ≤ ulp e / 2) (h3 : 2 ^ 127 * ulp e ≤ |v|) (h2 : ∀ w, FValid w → |mg K e - (|v|)| ≤ |(|fval w|) - (|v|)|) :
    Nearest (mk' (decide (v < 0)) K e) v ∧ Close (mk' (decide (v < 0)) K e) v (1 / 2 ^ 128) := by
  have hp := mg_pos (e := e) hK
  have hsv : v = sgn (decide (v < 0)) * |v| := by
    by_cases h : v < 0
    · rw [decide_eq_true h, sgn_true, abs_of_neg h]; ring
    · rw [decide_eq_false h, sgn_false, abs_of_nonneg (not_lt.1 h)]; ring
  have hva := abs_pos.2 hv
  have hf := fval_mk (s := decide (v < 0)) hK (nz_exp h0)
  have hdist : |fval (mk' (decide (v < 0)) K e) - v| = |mg K e - (|v|)| := by
    have : sgn (decide (v < 0)) * mg K e - v = sgn (decide (v < 0)) * (mg K e - |v|) := by
      rw [mul_sub, ← hsv]
    rw [hf, this, abs_mul, abs_sgn, one_mul]
  have hsign : SignType.sign (fval (mk' (decide (v < 0)) K e)) = SignType.sign v := by
    rw [hf]
    refine (sign_sgn hp hva).trans ?_
    rw [← hsv]
  refine ⟨⟨valid_mk hK he, hsign, fun w hw => ?_⟩, valid_mk hK he, hsign, ?_⟩
  · rw [hdist]
    exact le_trans (h2 w hw) (abs_abs_sub_abs_le_abs_sub _ _)
  · rw [hdist]
    linarith

/-! ### subtraction -/

private theorem mid_ulp {e : Nat} (h : Mid e) : 2 ^ 128 * ulp 0 ≤ ulp e ∧ ulp e * 2 ^ 128 ≤ ulp 18446744073709551615 := by
  obtain ⟨h1, h2⟩ := h
  constructor
  · have := ulp_mono (show 0 + 128 ≤ e by omega)
    rw [ulp_add] at this
    linarith
  · have := ulp_mono (show e + 128 ≤ 18446744073709551615 by omega)
    rw [ulp_add] at this
    exact this

private theorem mg_lt_q {m e : Nat} (h : Nrm m) : mg m e < Q128 * ulp e := by
  have : (m : ℚ) < ((340282366920938463463374607431768211456 : Nat) : ℚ) := Nat.cast_lt.2 h.2
  push_cast at this
  rw [mg_eq]
  exact mul_lt_mul_of_pos_right this (ulp_pos e)

/-- a difference is a multiple of the smaller unit -/
private theorem diff_bounds {m₁ e₁ m₂ e₂ : Nat} (h1 : Nrm m₁) (h2 : Nrm m₂) (b1 : Mid e₁) (b2 : Mid e₂)
    (hne : mg m₁ e₁ - mg m₂ e₂ ≠ 0) : Q128 * ulp 0 ≤ |mg m₁ e₁ - mg m₂ e₂| ∧
      |mg m₁ e₁ - mg m₂ e₂| < Q128 * ulp 18446744073709551615 := by
  constructor
  · obtain ⟨e, he, he1, he2⟩ : ∃ e, Mid e ∧ e ≤ e₁ ∧ e ≤ e₂ := by
      rcases le_total e₁ e₂ with h | h
      · exact ⟨e₁, b1, le_refl _, h⟩
      · exact ⟨e₂, b2, h, le_refl _⟩
    have u1 := ulp_add e (e₁ - e)
    rw [show e + (e₁ - e) = e₁ by omega] at u1
    have u2 := ulp_add e (e₂ - e)
    rw [show e + (e₂ - e) = e₂ by omega] at u2
    have hu := ulp_pos e
    have hd : mg m₁ e₁ - mg m₂ e₂ = ((m₁ * 2 ^ (e₁ - e) - m₂ * 2 ^ (e₂ - e) : ℤ) : ℚ) * ulp e := by
      rw [mg_eq, mg_eq, u1, u2]; push_cast; ring
    rw [hd] at hne ⊢
    generalize (m₁ * 2 ^ (e₁ - e) - m₂ * 2 ^ (e₂ - e) : ℤ) = D at *
    have hD : D ≠ 0 := by
      rintro rfl
      simp at hne
    have : (1 : ℚ) ≤ |(D : ℚ)| := by
      have := Int.one_le_abs hD
      exact_mod_cast this
    rw [abs_mul, abs_of_pos hu]
    have := (mid_ulp he).1
    norm_num at this
    nlinarith
  · have p1 := mg_pos (e := e₁) h1
    have p2 := mg_pos (e := e₂) h2
    have q1 := mg_lt_q (e := e₁) h1
    have q2 := mg_lt_q (e := e₂) h2
    have := (mid_ulp b1).2
    have := (mid_ulp b2).2
    have := ulp_pos e₁
    have := ulp_pos e₂
    rw [abs_lt]
    constructor <;> linarith

/-- two numbers of equal sign -/
private theorem sub_near {s : Bool} {m₁ e₁ m₂ e₂ : Nat} (h1 : Nrm m₁) (h2 : Nrm m₂) (b1 : Mid e₁) (b2 : Mid e₂)
    (hc : NoCarry (sgn s * mg m₁ e₁ - sgn s * mg m₂ e₂)) : ∃ z, F192.sub (mk' s m₁ e₁) (mk' s m₂ e₂) = pure z ∧
      Nearest z (sgn s * mg m₁ e₁ - sgn s * mg m₂ e₂) ∧
      Close z (sgn s * mg m₁ e₁ - sgn s * mg m₂ e₂) (1 / 2 ^ 128) ∧ z ≠ negTiny := by
  rw [sub_same h1 h2 b1 b2]
  have hv : |sgn s * mg m₁ e₁ - sgn s * mg m₂ e₂| = |mg m₁ e₁ - mg m₂ e₂| := by
    rw [← mul_sub, abs_mul, abs_sgn, one_mul]
  by_cases h0 : sgn s * mg m₁ e₁ - sgn s * mg m₂ e₂ = 0
  · rw [h0, from_ratio_zero]
    refine ⟨_, rfl, ⟨by decide, by rw [fval_zero], fun w _ => ?_⟩, close_exact (by decide) fval_zero (by norm_num),
      by decide⟩
    rw [fval_zero, sub_zero, _root_.abs_zero]
    exact abs_nonneg _
  · obtain ⟨d1, d2⟩ := diff_bounds h1 h2 b1 b2 (fun hc => by
      apply h0
      rw [← mul_sub, hc, mul_zero])
    rw [← hv] at d1 d2
    obtain ⟨K, e, a1, a2, a3, a4, a5, a6, a7⟩ := from_ratio_nearest d1 d2 hc
    obtain ⟨n1, n2⟩ := nearest_of h0 a1 a2 a3 a5 a6 a7
    refine ⟨_, a4, n1, n2, fun hcc => ?_⟩
    have := congrArg F192.exp hcc
    rw [mk_exp] at this
    exact absurd this a3.ne'

theorem inRange_mid {s : Bool} {m e : Nat} (hm : Nrm m) (h : InRange (mk' s m e)) (hz : ¬Z s m e) : Mid e := by
  rcases h with h | ⟨h1, h2⟩
  · exact absurd h.symm (zero_ne_mk hm hz)
  · rw [mk_exp] at h1 h2
    exact ⟨by omega, by omega⟩

private theorem inRange_tiny {x : F192} (h : InRange x) : x ≠ negTiny := by
  rintro rfl
  rcases h with h | ⟨h1, -⟩
  · exact absurd h (by decide)
  · exact absurd h1 (by decide)

private theorem sgn_cases {a b : Bool} (h : a ≠ b) : (a = false ∧ b = true) ∨ (a = true ∧ b = false) := by
  cases a <;> cases b <;> simp at *

private theorem close_mono {z : F192} {v a b : ℚ} (h : Close z v a) (hab : a ≤ b) : Close z v b :=
  ⟨h.1, h.2.1, le_trans h.2.2 (mul_le_mul_of_nonneg_right hab (abs_nonneg _))⟩

private theorem noCarry_neg {v : ℚ} (h : NoCarry v) : NoCarry (-v) := by
  unfold NoCarry at *
  rwa [abs_neg]

/-- The sum of two numbers whose exponents are below `2^32` has the right sign and a relative error of at most
`2^-127`, unless the signs differ and rounding the exact sum carries into the next power of two. -/
theorem C41_add_partial {x y : F192} (hx : FValid x) (hy : FValid y) (rx : InRange x) (ry : InRange y)
    (h : 0 ≤ fval x * fval y ∨ NoCarry (fval x + fval y)) :
    ∃ z, F192.add x y = pure z ∧ Close z (fval x + fval y) (1 / 2 ^ 127) := by
  have t1 := inRange_tiny rx
  have t2 := inRange_tiny ry
  have e1 : x.exp < 2 ^ 64 - 1 := by
    rcases rx with rfl | ⟨-, h⟩
    · decide
    · omega
  have e2 : y.exp < 2 ^ 64 - 1 := by
    rcases ry with rfl | ⟨-, h⟩
    · decide
    · omega
  by_cases hs : 0 ≤ fval x * fval y
  · obtain ⟨z, a1, -, a2⟩ := C41_add_same hx hy hs e1 e2 t1 t2
    exact ⟨z, a1, a2⟩
  · have hc := h.resolve_left hs
    have zx : fval x ≠ 0 := by intro hh; rw [hh, zero_mul] at hs; exact hs (le_refl _)
    have zy : fval y ≠ 0 := by intro hh; rw [hh, mul_zero] at hs; exact hs (le_refl _)
    obtain ⟨s, m, e, hm, he, hz, rfl, hv⟩ := mk_of_not_zero hx zx
    obtain ⟨s', m', e', hm', he', hz', rfl, hv'⟩ := mk_of_not_zero hy zy
    have b1 := inRange_mid hm rx hz
    have b2 := inRange_mid hm' ry hz'
    have hp := mul_pos (mg_pos (e := e) hm) (mg_pos (e := e') hm')
    rw [hv, hv'] at hc ⊢
    have hne : s ≠ s' := by
      rintro rfl
      apply hs
      rw [hv, hv', mul_mul_mul_comm, sgn_mul_self, one_mul]
      exact le_of_lt hp
    rcases sgn_cases hne with ⟨rfl, rfl⟩ | ⟨rfl, rfl⟩
    · rw [F192.add, is_neg_mk hm, is_neg_mk hm', if_pos (by decide), if_neg (by decide), neg_mk hm' hz', Bool.not_true]
      have hv2 : sgn false * mg m e + sgn true * mg m' e' = sgn false * mg m e - sgn false * mg m' e' := by
        rw [sgn_false, sgn_true]; ring
      rw [hv2] at hc ⊢
      obtain ⟨z, a1, -, a2, -⟩ := sub_near hm hm' b1 b2 hc
      exact ⟨z, a1, close_mono a2 (by norm_num)⟩
    · rw [F192.add, is_neg_mk hm, is_neg_mk hm', if_pos (by decide), if_pos rfl, neg_mk hm hz, Bool.not_true]
      have hv2 : sgn true * mg m e + sgn false * mg m' e' = sgn false * mg m' e' - sgn false * mg m e := by
        rw [sgn_false, sgn_true]; ring
      rw [hv2] at hc ⊢
      obtain ⟨z, a1, -, a2, -⟩ := sub_near hm' hm b2 b1 hc
      exact ⟨z, a1, close_mono a2 (by norm_num)⟩

/-- 1 + 1/2 -/
example : ∃ z, F192.add ⟨0, 2 ^ 48 - 127⟩ ⟨0, 2 ^ 48 - 128⟩ = pure z ∧ Close z (3 / 2) (1 / 2 ^ 127) := by
  have h1 : fval ⟨0, 2 ^ 48 - 127⟩ = 1 := ex_one
  have h : fval ⟨0, 2 ^ 48 - 128⟩ = 1 / 2 := ex_half
  have := C41_add_partial (x := ⟨0, 2 ^ 48 - 127⟩) (y := ⟨0, 2 ^ 48 - 128⟩) (by decide) (by decide) (by unfold InRange; norm_num) (by unfold InRange; norm_num)
    (Or.inl (by rw [h, h1]; norm_num))
  rw [h, h1] at this
  norm_num at this ⊢
  exact this

private theorem neg_fval {x : F192} (hx : FValid x) (ht : x ≠ negTiny) :
    FValid (F192.neg x) ∧ fval (F192.neg x) = -fval x := by
  by_cases h0 : fval x = 0
  · rw [(fval_eq_zero hx).1 h0, F192.neg_zero, fval_zero]
    exact ⟨by decide, by norm_num⟩
  · obtain ⟨s, m, e, hm, he, hz, rfl, hv⟩ := mk_of_not_zero hx h0
    have hz2 : ¬Z (!s) m e := by
      cases s
      · exact nz_true
      · exact tiny_iff hm ht
    rw [neg_mk hm hz, hv, fval_mk hm hz2, sgn_not]
    exact ⟨valid_mk hm he, by ring⟩

private theorem close_neg {z : F192} {v ε : ℚ} (h : Close z v ε) (ht : z ≠ negTiny) : Close (F192.neg z) (-v) ε := by
  obtain ⟨h1, h2, h3⟩ := h
  obtain ⟨g1, g2⟩ := neg_fval h1 ht
  refine ⟨g1, ?_, ?_⟩
  · rw [g2, Left.sign_neg, Left.sign_neg, h2]
  · rw [g2, abs_neg, show -fval z - -v = -(fval z - v) by ring, abs_neg]; exact h3

/-- The difference, under the same conditions. -/
theorem C41_sub_partial {x y : F192} (hx : FValid x) (hy : FValid y) (rx : InRange x) (ry : InRange y)
    (h : fval x * fval y ≤ 0 ∨ NoCarry (fval x - fval y)) :
    ∃ z, F192.sub x y = pure z ∧ Close z (fval x - fval y) (1 / 2 ^ 127) := by
  have t1 := inRange_tiny rx
  have t2 := inRange_tiny ry
  by_cases zx : fval x = 0
  · rw [(fval_eq_zero hx).1 zx, fval_zero, zero_sub]
    obtain ⟨g1, g2⟩ := neg_fval hy t2
    have : F192.sub ZERO y = pure (F192.neg y) := by
      rw [F192.sub, show is_neg ZERO = false from rfl]
      cases hn : is_neg y
      · rfl
      · rw [if_pos (by decide), if_neg (by decide)]
        refine (add_zero_right g1 ?_).1
        intro hc
        rw [hc] at g2
        rw [is_neg_c hy] at hn
        have : is_neg negTiny = true := by decide
        rw [is_neg_c (by decide)] at this
        simp only [decide_eq_true_eq] at this hn
        rw [g2] at this
        linarith
    exact ⟨_, this, close_exact g1 g2 (by norm_num)⟩
  by_cases zy : fval y = 0
  · rw [(fval_eq_zero hy).1 zy, fval_zero, sub_zero]
    obtain ⟨s, m, e, hm, he, hz, rfl, hv⟩ := mk_of_not_zero hx zx
    have hm1 := (inRange_mid hm rx hz).1
    exact ⟨_, sub_zero_right hm hz (nz_exp (by omega)), close_exact hx rfl (by norm_num)⟩
  obtain ⟨s, m, e, hm, he, hz, rfl, hv⟩ := mk_of_not_zero hx zx
  obtain ⟨s', m', e', hm', he', hz', rfl, hv'⟩ := mk_of_not_zero hy zy
  have b1 := inRange_mid hm rx hz
  have b2 := inRange_mid hm' ry hz'
  have p1 := mg_pos (e := e) hm
  have p2 := mg_pos (e := e') hm'
  have hp := mul_pos p1 p2
  by_cases hs : s = s'
  · subst hs
    have hc := h.resolve_left (by
      rw [hv, hv', mul_mul_mul_comm, sgn_mul_self, one_mul, not_le]; exact hp)
    rw [hv, hv'] at hc ⊢
    obtain ⟨z, a1, -, a2, -⟩ := sub_near hm hm' b1 b2 hc
    exact ⟨z, a1, close_mono a2 (by norm_num)⟩
  · have b1' := b1.1
    have b1'' := b1.2
    have b2' := b2.1
    have b2'' := b2.2
    rcases sgn_cases hs with ⟨rfl, rfl⟩ | ⟨rfl, rfl⟩
    · rw [hv, hv', F192.sub, is_neg_mk hm, is_neg_mk hm', if_pos (by decide), if_neg (by decide), neg_mk hm' hz',
        Bool.not_true]
      rcases add_same (s := false) hm hm' he he' (nz_exp (by omega)) (nz_exp (by omega)) with
        ⟨-, hc⟩ | ⟨m2, e2, a1, a2, -, -, -, a6, a7, a8⟩
      · omega
      · refine ⟨_, a7, ?_⟩
        have := close_trunc a1 a2 a6 a8
        rw [sgn_false, one_mul] at this
        rw [sgn_false, sgn_true]
        rw [show 1 * mg m e - -1 * mg m' e' = mg m e + mg m' e' by ring]
        exact this
    · rw [hv, hv', F192.sub, is_neg_mk hm, is_neg_mk hm', if_pos (by decide), if_pos rfl, neg_mk hm hz,
        Bool.not_true]
      rcases add_same (s := false) hm' hm he' he (nz_exp (by omega)) (nz_exp (by omega)) with
        ⟨-, hc⟩ | ⟨m2, e2, a1, a2, a3, -, -, a6, a7, a8⟩
      · omega
      · rw [a7, pure_bind]
        refine ⟨_, rfl, ?_⟩
        have := close_neg (close_trunc a1 a2 a6 a8) (by
          intro hcc
          have := congrArg F192.exp hcc
          rw [mk_exp] at this
          have : e2 = 0 := this
          omega)
        rw [sgn_false, one_mul] at this
        rw [sgn_false, sgn_true]
        rw [show -1 * mg m e - 1 * mg m' e' = -(mg m' e' + mg m e) by ring]
        exact this

/-- 1 - (-1/2) -/
example : ∃ z, F192.sub ⟨0, 2 ^ 48 - 127⟩ ⟨2 ^ 127, 2 ^ 48 - 128⟩ = pure z ∧ Close z (3 / 2) (1 / 2 ^ 127) := by
  have h1 : fval ⟨0, 2 ^ 48 - 127⟩ = 1 := ex_one
  have h : fval ⟨2 ^ 127, 2 ^ 48 - 128⟩ = -1 / 2 := ex_neg_half
  have := C41_sub_partial (x := ⟨0, 2 ^ 48 - 127⟩) (y := ⟨2 ^ 127, 2 ^ 48 - 128⟩) (by decide) (by decide) (by unfold InRange; norm_num) (by unfold InRange; norm_num)
    (Or.inl (by rw [h, h1]; norm_num))
  rw [h, h1] at this
  norm_num at this ⊢
  exact this

theorem carry_mk {v : ℚ} {e : Nat} (he : e < 18446744073709551616) (h1 : (2 ^ 128 - 1 / 2) * ulp e ≤ |v|)
    (h2 : |v| < 2 ^ 128 * ulp e) : from_ratio (ofRat v) = pure (mk' true 170141183460469231731687303715884105728 e) := by
  have hu := ulp_pos e
  have u0 := ulp_mono (Nat.zero_le e)
  have u0' := ulp_pos 0
  have u1 := ulp_mono (show e ≤ 18446744073709551615 by omega)
  have h0 : v ≠ 0 := by
    rintro rfl
    rw [_root_.abs_zero] at h1
    linarith
  obtain ⟨n, e', n1, n2, n3, n4, n5⟩ := from_ratio_c h0 (by linarith) (by linarith)
  have hu' := ulp_pos e'
  have hee : e' = e := by
    rcases lt_trichotomy e' e with h | h | h
    · have := ulp_mono (show e' + 1 ≤ e by omega)
      rw [ulp_succ] at this
      nlinarith
    · exact h
    · have := ulp_mono (show e + 1 ≤ e' by omega)
      rw [ulp_succ] at this
      nlinarith
  subst hee
  rw [n4] at h1
  have hn := le_of_mul_le_mul_right h1 hu
  have : ⌊n + 1 / 2⌋ = 340282366920938463463374607431768211456 := by
    rw [Int.floor_eq_iff]
    push_cast
    norm_num at hn
    constructor <;> linarith
  rw [n5, roundMk, this, if_pos (by norm_num)]

theorem ulp_sub {k : Nat} (h : k ≤ 281474976710656) : ulp (281474976710656 - k) = 1 / 2 ^ k := by
  have := mg_coeff_sub (m := 1) h
  rw [mg_eq, Nat.cast_one, one_mul] at this
  exact this

private theorem fval_sm {s : Bool} {k : Nat} (h : k < 281474976710656) :
    fval (mk' s 170141183460469231731687303715884105728 (281474976710656 - k)) = sgn s * (2 ^ 127 / 2 ^ k) := by
  rw [fval_mk nrm_S (nz_exp (by omega)), mg_coeff_sub (by omega)]
  norm_num

/-- `1 - 2^-130` is `-1/2`. -/
theorem C41_sub_counterexample : F192.sub ⟨0, 2 ^ 48 - 127⟩ ⟨0, 2 ^ 48 - 257⟩ = pure ⟨2 ^ 127, 2 ^ 48 - 128⟩ ∧
    fval ⟨0, 2 ^ 48 - 127⟩ = 1 ∧ fval ⟨0, 2 ^ 48 - 257⟩ = 1 / 2 ^ 130 ∧ fval ⟨2 ^ 127, 2 ^ 48 - 128⟩ = -1 / 2 := by
  have v1 := fval_sm (s := false) (k := 127) (by omega)
  have v2 := fval_sm (s := false) (k := 257) (by omega)
  have v3 := fval_sm (s := true) (k := 128) (by omega)
  have w1 := mg_coeff_sub (m := 170141183460469231731687303715884105728) (k := 127) (by omega)
  have w2 := mg_coeff_sub (m := 170141183460469231731687303715884105728) (k := 257) (by omega)
  have hp : (2 : ℚ) ^ 257 = 2 ^ 130 * 2 ^ 127 := by rw [← pow_add]
  rw [hp] at v2 w2
  refine ⟨?_, v1.trans (by norm_num [sgn]), v2.trans (by norm_num [sgn]), v3.trans (by norm_num [sgn])⟩
  have u := ulp_sub (k := 128) (by omega)
  refine (sub_same (s := false) nrm_S nrm_S (e₁ := 281474976710656 - 127) (e₂ := 281474976710656 - 257)
    ⟨by omega, by omega⟩ ⟨by omega, by omega⟩).trans ?_
  rw [w1, w2]
  refine carry_mk (e := 281474976710656 - 128) (by omega) ?_ ?_
  · rw [u, sgn_false, one_mul, one_mul, abs_of_pos (by norm_num)]; norm_num
  · rw [u, sgn_false, one_mul, one_mul, abs_of_pos (by norm_num)]; norm_num

/-! ### multiplication -/

/-- The product is at most the exact one in magnitude, has its sign, and the relative error is less than `2^-124`. -/
theorem C41_mul {x y : F192} (hx : FValid x) (hy : FValid y)
    (h : fval x * fval y = 0 ∨ (2 ^ 48 ≤ x.exp + y.exp ∧ x.exp + y.exp < 2 ^ 64)) :
    ∃ z, F192.mul x y = pure z ∧ Close z (fval x * fval y) (1 / 2 ^ 124) ∧ |fval z| ≤ |fval x * fval y| := by
  by_cases h0 : fval x * fval y = 0
  · have hz : F192.mul x y = pure ZERO := by
      rw [F192.mul, is_zero_eq, is_zero_eq, if_pos]
      rcases mul_eq_zero.1 h0 with h | h
      · rw [(fval_eq_zero hx).1 h]; simp
      · rw [(fval_eq_zero hy).1 h]; simp
    rw [h0]
    exact ⟨_, hz, close_exact (by decide) fval_zero (by norm_num), by rw [fval_zero]⟩
  · have hE := h.resolve_left h0
    obtain ⟨s, m, e, hm, he, hz, rfl, hv⟩ := mk_of_not_zero hx (left_ne_zero_of_mul h0)
    obtain ⟨s', m', e', hm', he', hz', rfl, hv'⟩ := mk_of_not_zero hy (right_ne_zero_of_mul h0)
    rw [mk_exp, mk_exp] at hE
    obtain ⟨m2, e2, a1, a2, a3, -, -, a4, a5, a6⟩ := mul_c hm hm' hz hz' (by omega) (by omega)
    have p1 := mg_pos (e := e) hm
    have p2 := mg_pos (e := e') hm'
    have p := mul_pos p1 p2
    have p3 := mg_pos (e := e2) a1
    have hprod : sgn s * mg m e * (sgn s' * mg m' e') = sgn (s != s') * (mg m e * mg m' e') := by
      rw [sgn_xor]; ring
    rw [hv, hv', hprod, a4]
    refine ⟨_, rfl, ⟨valid_mk a1 a2, ?_, ?_⟩, ?_⟩
    · rw [fval_mk a1 (nz_exp a3)]; exact sign_sgn p3 p
    · rw [fval_mk a1 (nz_exp a3), ← mul_sub, abs_mul, abs_mul, abs_sgn, one_mul, one_mul, abs_of_pos p, abs_le]
      constructor <;> linarith
    · rw [abs_fval a1 (nz_exp a3), abs_mul, abs_sgn, one_mul, abs_of_pos p]; exact a5

example : F192.mul ⟨2 ^ 126, 2 ^ 48 - 126⟩ ⟨2 ^ 127, 2 ^ 48 - 126⟩ = pure ⟨2 ^ 127 + 2 ^ 126, 2 ^ 48 - 125⟩ := rfl

/-- Below the range the product is flushed to zero; the exact product is then tiny. -/
theorem C41_mul_underflow {x y : F192} (hx : FValid x) (hy : FValid y) (h : x.exp + y.exp < 2 ^ 48) :
    F192.mul x y = pure ZERO ∧ |fval x * fval y| < 2 ^ (256 - 2 ^ 48 : ℤ) := by
  by_cases h0 : fval x * fval y = 0
  · have hz : F192.mul x y = pure ZERO := by
      rw [F192.mul, is_zero_eq, is_zero_eq, if_pos]
      rcases mul_eq_zero.1 h0 with h | h
      · rw [(fval_eq_zero hx).1 h]; simp
      · rw [(fval_eq_zero hy).1 h]; simp
    rw [h0, _root_.abs_zero]
    exact ⟨hz, zpow_pos (by norm_num) _⟩
  · obtain ⟨s, m, e, hm, he, hz, rfl, hv⟩ := mk_of_not_zero hx (left_ne_zero_of_mul h0)
    obtain ⟨s', m', e', hm', he', hz', rfl, hv'⟩ := mk_of_not_zero hy (right_ne_zero_of_mul h0)
    rw [mk_exp, mk_exp] at h
    obtain ⟨a1, a2⟩ := mul_flush hm hm' hz hz' (by omega)
    refine ⟨a1, ?_⟩
    rw [abs_mul, abs_fval hm hz, abs_fval hm' hz']
    exact a2

example : F192.mul ⟨1, 5⟩ ⟨2, 7⟩ = pure ZERO := rfl

/-- Above the range the product panics. -/
theorem C41_mul_overflow {x y : F192} (hx : FValid x) (hy : FValid y) (h0 : fval x * fval y ≠ 0)
    (h : 2 ^ 64 ≤ x.exp + y.exp) : Panics (F192.mul x y) := by
  obtain ⟨s, m, e, hm, he, hz, rfl, hv⟩ := mk_of_not_zero hx (left_ne_zero_of_mul h0)
  obtain ⟨s', m', e', hm', he', hz', rfl, hv'⟩ := mk_of_not_zero hy (right_ne_zero_of_mul h0)
  rw [mk_exp, mk_exp] at h
  exact ⟨_, mul_panic hm hm' hz hz' (by omega)⟩

example : Panics (F192.mul MAX ⟨0, 1⟩) := ⟨.overflow, rfl⟩

/-- The last bit is lost when multiplying with one. -/
theorem C41_mul_one_counterexample : F192.mul ⟨1, 2 ^ 48 - 127⟩ ⟨0, 2 ^ 48 - 127⟩ = pure ⟨0, 2 ^ 48 - 127⟩ ∧
    fval ⟨0, 2 ^ 48 - 127⟩ = 1 ∧ fval ⟨1, 2 ^ 48 - 127⟩ ≠ 1 := by
  have v1 := fval_sm (s := false) (k := 127) (by omega)
  have e1 : fval ⟨0, 2 ^ 48 - 127⟩ = 1 := v1.trans (by norm_num [sgn])
  refine ⟨rfl, e1, fun hc => ?_⟩
  exact absurd (fval_inj (by decide) (by decide) (hc.trans e1.symm)) (by decide)

/-! ### small factors and divisors -/

theorem prodSign_val {s : Bool} {a : Int} (p : ℚ) :
    sgn (prodSign s a) * (p * a.natAbs) = sgn s * p * a := by
  have : ((a.natAbs : Nat) : ℚ) = |(a : ℚ)| := by
    rw [Nat.cast_natAbs]; push_cast; rfl
  rw [this, prodSign]
  by_cases hn : a < 0
  · have hq : (a : ℚ) < 0 := by exact_mod_cast hn
    rw [decide_eq_true hn, sgn_xor, sgn_true, abs_of_neg hq]; ring
  · have hq : (0 : ℚ) ≤ a := by exact_mod_cast not_lt.1 hn
    rw [decide_eq_false hn, sgn_xor, sgn_false, abs_of_nonneg hq]; ring

private theorem natAbs_i32 {a : Int} (h : IsI32 a) (h' : a ≠ -2 ^ 31) : a.natAbs < 2147483648 := by
  unfold IsI32 at h; omega

/-- When it returns, the product with an `i32` is the exact one cut off to 128 bits. -/
theorem C41_mul_i32_returned {x : F192} {a : Int} (hx : FValid x) (ha : IsI32 a) (h0 : x.exp ≠ 0 ∨ x = ZERO) :
    Panics (F192.mul_i32 x a) ∨ ∃ z, F192.mul_i32 x a = pure z ∧ Truncates z (fval x * a) ∧
      Close z (fval x * a) (1 / 2 ^ 127) := by
  by_cases hz : fval x * a = 0
  · right
    have : F192.mul_i32 x a = pure ZERO := by
      rw [F192.mul_i32, is_zero_eq, if_pos]
      rcases mul_eq_zero.1 hz with h | h
      · rw [(fval_eq_zero hx).1 h]; simp
      · have : a = 0 := by exact_mod_cast h
        rw [this]; simp
    rw [hz]
    exact ⟨_, this, truncates_exact (by decide) fval_zero, close_exact (by decide) fval_zero (by norm_num)⟩
  · have ha0 : a ≠ 0 := by rintro rfl; simp at hz
    obtain ⟨s, m, e, hm, he, hzz, rfl, hv⟩ := mk_of_not_zero hx (left_ne_zero_of_mul hz)
    have he0 : 0 < e := by
      rcases h0 with h | h
      · rw [mk_exp] at h; omega
      · exact absurd h.symm (zero_ne_mk hm hzz)
    by_cases hmin : a = -2 ^ 31
    · left
      refine ⟨.overflow, ?_⟩
      rw [F192.mul_i32, if_neg, i32AbsU128, if_pos (by omega)]
      · rfl
      · rw [is_zero_mk hm]
        simp only [Bool.or_eq_true, decide_eq_true_eq, not_or, beq_iff_eq]
        exact ⟨hzz, ha0⟩
    · have hA := natAbs_i32 ha hmin
      by_cases hbig : e + 32 < 18446744073709551616
      · rcases mul_i32_c hm hzz ha0 hA hbig with ⟨h, -⟩ | ⟨m', e', b1, b2, b3, b4, b5⟩
        · exact Or.inl ⟨_, h⟩
        · right
          rw [hv, ← prodSign_val, b4]
          exact ⟨_, rfl, truncates_trunc b1 (by omega) (nz_exp (by omega)) b5,
            close_trunc b1 (by omega) (nz_exp (by omega)) b5⟩
      · left
        refine ⟨.overflow, ?_⟩
        have hq : ∀ q, q < 2 ^ 96 → q * a.natAbs < 340282366920938463463374607431768211456 := fun q hq => by
          calc q * a.natAbs ≤ 2 ^ 96 * 2 ^ 31 := Nat.mul_le_mul (by omega) (by omega)
            _ < _ := by norm_num
        have hmm := hm.2
        rw [F192.mul_i32, if_neg, i32AbsU128, if_neg (by omega), pure_bind, or_mk hm, u128Mul, uMul_eq (hq _ ?_),
          pure_bind, uShr_eq (by norm_num), pure_bind, uMul_eq (hq _ ?_), pure_bind, mk_exp, u64Add, uAdd,
          if_neg (by omega)]
        · rfl
        · omega
        · rw [show (4294967295 : Nat) = 2 ^ 32 - 1 by norm_num, Nat.and_two_pow_sub_one_eq_mod]
          omega
        · rw [is_zero_mk hm]
          simp only [Bool.or_eq_true, decide_eq_true_eq, not_or, beq_iff_eq]
          exact ⟨hzz, ha0⟩

example : Panics (F192.mul_i32 ⟨1, 2 ^ 48 - 127⟩ 7) ∨ ∃ z, F192.mul_i32 ⟨1, 2 ^ 48 - 127⟩ 7 = pure z ∧ Truncates z (fval ⟨1, 2 ^ 48 - 127⟩ * (7 : ℤ)) ∧
    Close z (fval ⟨1, 2 ^ 48 - 127⟩ * (7 : ℤ)) (1 / 2 ^ 127) :=
  C41_mul_i32_returned (by decide) (by unfold IsI32; norm_num) (Or.inl (by norm_num))

/-- It returns when the last 32 bits of the mantissa are zero, as for integers below `2^96`. -/
theorem C41_mul_i32_partial {x : F192} {a : Int} (hx : FValid x) (ha : IsI32 a) (h' : a ≠ -2 ^ 31)
    (h0 : x.exp ≠ 0 ∨ x = ZERO) (h1 : x.exp < 2 ^ 64 - 32) (h2 : x.digits % 2 ^ 32 = 0) :
    ∃ z, F192.mul_i32 x a = pure z ∧ Truncates z (fval x * a) ∧ Close z (fval x * a) (1 / 2 ^ 127) := by
  rcases C41_mul_i32_returned hx ha h0 with ⟨p, hp⟩ | h
  · exfalso
    by_cases hz : is_zero x = true ∨ a = 0
    · rw [F192.mul_i32, if_pos (by simpa using hz)] at hp
      exact absurd hp (by rintro ⟨⟩)
    · obtain ⟨hz1, hz2⟩ := not_or.1 hz
      rw [is_zero_eq, decide_eq_true_eq] at hz1
      obtain ⟨s, m, e, hm, he, hzz, rfl, hv⟩ := mk_of_not_zero hx (fun hc => hz1 ((fval_eq_zero hx).1 hc))
      rw [mk_exp] at h1
      rcases mul_i32_c hm hzz hz2 (natAbs_i32 ha h') (by omega) with ⟨-, h⟩ | ⟨m', e', -, -, -, b4, -⟩
      · apply h
        have hd := digits_mod (s := s) (e := e) hm
        have := hm.1
        generalize (mk' s m e).digits = d at *
        omega
      · rw [b4] at hp
        exact absurd hp (by rintro ⟨⟩)
  · exact h

example : ∃ z, F192.mul_i32 ⟨2 ^ 126, 2 ^ 48 - 127⟩ (-5) = pure z ∧ Truncates z (fval ⟨2 ^ 126, 2 ^ 48 - 127⟩ * (-5 : ℤ)) := by
  obtain ⟨z, h1, h2, -⟩ := C41_mul_i32_partial (x := ⟨2 ^ 126, 2 ^ 48 - 127⟩) (a := -5) (by decide)
    (by unfold IsI32; omega) (by norm_num) (by decide) (by decide) (by decide)
  exact ⟨z, h1, h2⟩

/-- Three times the number nearest to `4/3` from above panics, as does every product with `-2^31`. -/
theorem C41_mul_i32_counterexample :
    Panics (F192.mul_i32 ⟨56713727820156410577229101238628035243, 2 ^ 48 - 127⟩ 3) ∧
    Panics (F192.mul_i32 ⟨0, 2 ^ 48 - 127⟩ (-2 ^ 31)) := by
  refine ⟨⟨.overflow, ?_⟩, ⟨.overflow, rfl⟩⟩
  have : normLoop 158456325028528675187087900670 8589934593 281474976710561 =
    pure (158456325028528675187087900670 * 2 ^ 31, 8589934593 * 2 ^ 31, 281474976710561 - 31) := by
    rw [normLoop_c 31 (by norm_num) (by norm_num), if_pos (by norm_num)]
  change (do
    let p ← normLoop 158456325028528675187087900670 8589934593 281474976710561
    let d ← u128Add p.1 (p.2.1 / 2 ^ 32)
    pure (⟨d &&& LOW_MASK ||| signBit _, p.2.2⟩ : F192)) = _
  rw [this]; rfl

/-- The quotient by an `i32` is the exact one cut off to 128 bits. -/
theorem C41_div_i32_partial {x : F192} {a : Int} (hx : FValid x) (ha : IsI32 a) (h' : a ≠ -2 ^ 31) (h0 : a ≠ 0)
    (h1 : 32 ≤ x.exp ∨ x = ZERO) :
    ∃ z, F192.div_i32 x a = pure z ∧ Truncates z (fval x / a) ∧ Close z (fval x / a) (1 / 2 ^ 127) := by
  by_cases hz : fval x = 0
  · have : F192.div_i32 x a = pure ZERO := by
      rw [(fval_eq_zero hx).1 hz, F192.div_i32, if_neg h0]; rfl
    rw [hz, zero_div]
    exact ⟨_, this, truncates_exact (by decide) fval_zero, close_exact (by decide) fval_zero (by norm_num)⟩
  · obtain ⟨s, m, e, hm, he, hzz, rfl, hv⟩ := mk_of_not_zero hx hz
    have he0 : 32 ≤ e := by
      rcases h1 with h | h
      · rw [mk_exp] at h; omega
      · exact absurd h.symm (zero_ne_mk hm hzz)
    obtain ⟨m', k, b1, b2, b3, b4⟩ := div_i32_c hm hzz h0 (natAbs_i32 ha h')
    have ht := b4 (by omega)
    have hval : sgn (prodSign s a) * (mg m e / a.natAbs) = sgn s * mg m e / a := by
      have hA : ((a.natAbs : Nat) : ℚ) ≠ 0 := by
        have : a.natAbs ≠ 0 := by omega
        exact_mod_cast this
      have haq : (a : ℚ) ≠ 0 := by exact_mod_cast h0
      have hsq : ((a.natAbs : Nat) : ℚ) * (a.natAbs : Nat) = a * a := by
        rw [Nat.cast_natAbs]; push_cast; exact abs_mul_abs_self _
      have := prodSign_val (s := s) (a := a) (mg m e / (a.natAbs * a.natAbs))
      rw [hsq] at this
      rw [eq_div_iff haq]
      rw [show mg m e / ((a : ℚ) * a) * (a.natAbs : Nat) = mg m e / a.natAbs by
        rw [← hsq]; field_simp] at this
      rw [this]; field_simp
    rw [hv, ← hval, b3, if_pos (by omega)]
    exact ⟨_, rfl, truncates_trunc b1 (by omega) (nz_exp (by omega)) ht,
      close_trunc b1 (by omega) (nz_exp (by omega)) ht⟩

example : ∃ z, F192.div_i32 ⟨0, 2 ^ 48 - 127⟩ (-3) = pure z ∧ Truncates z (fval ⟨0, 2 ^ 48 - 127⟩ / (-3 : ℤ)) := by
  obtain ⟨z, h1, h2, -⟩ := C41_div_i32_partial (x := ⟨0, 2 ^ 48 - 127⟩) (a := -3) (by decide)
    (by unfold IsI32; omega) (by norm_num) (by decide) (by decide)
  exact ⟨z, h1, h2⟩

/-- Division by zero and by `-2^31` panics. -/
theorem C41_div_i32_counterexample : Panics (F192.div_i32 ⟨0, 2 ^ 48 - 127⟩ 0) ∧
    Panics (F192.div_i32 ⟨0, 2 ^ 48 - 127⟩ (-2 ^ 31)) := ⟨⟨.explicit, rfl⟩, ⟨.overflow, rfl⟩⟩

/-! ## C42: rationals -/

/-- The nearest number of the format, unless rounding carries into the next power of two. -/
theorem C42_from_ratio_partial {r : Ratio} (hr : RValid r) (hlo : 2 ^ (128 - 2 ^ 48 : ℤ) ≤ |rval r|)
    (hhi : |rval r| < 2 ^ (127 + 2 ^ 64 - 2 ^ 48 : ℤ)) (hc : NoCarry (rval r)) :
    ∃ z, from_ratio r = pure z ∧ Nearest z (rval r) ∧ Close z (rval r) (1 / 2 ^ 128) := by
  have e1 : (2 : ℚ) ^ (128 - 2 ^ 48 : ℤ) = 340282366920938463463374607431768211456 * ulp 0 := by
    rw [ulp_zpow, show (340282366920938463463374607431768211456 : ℚ) = 2 ^ (128 : ℤ) by norm_num,
      ← zpow_add₀ (by norm_num)]
    norm_num
  have e2 : (2 : ℚ) ^ (127 + 2 ^ 64 - 2 ^ 48 : ℤ) = 340282366920938463463374607431768211456 * ulp 18446744073709551615 := by
    rw [ulp_zpow, show (340282366920938463463374607431768211456 : ℚ) = 2 ^ (128 : ℤ) by norm_num,
      ← zpow_add₀ (by norm_num)]
    norm_num
  have e := hr.eq_ofRat
  generalize rval r = v at *
  rw [e1] at hlo
  rw [e2] at hhi
  have h0 : v ≠ 0 := by
    rintro rfl
    rw [_root_.abs_zero] at hlo
    have := ulp_pos 0
    linarith
  subst e
  obtain ⟨K, e, a1, a2, a3, a4, a5, a6, a7⟩ := from_ratio_nearest hlo hhi hc
  exact ⟨_, a4, nearest_of h0 a1 a2 a3 a5 a6 a7⟩

/-- Zero converts to zero. -/
theorem C42_from_ratio_zero {r : Ratio} (hr : RValid r) (h : rval r = 0) : from_ratio r = pure ZERO := by
  rw [hr.eq_ofRat, h, from_ratio_zero]

example : RValid ⟨⟨[1], false⟩, ⟨[0], false⟩⟩ ∧ rval ⟨⟨[1], false⟩, ⟨[0], false⟩⟩ = 0 := ⟨by decide, by decide +kernel⟩

/-- When rounding carries, the result is negative and half as large as the next power of two. -/
theorem C42_from_ratio_carry {r : Ratio} (hr : RValid r) {k : ℤ} (k1 : -2 ^ 48 ≤ k) (k2 : k < 2 ^ 64 - 2 ^ 48)
    (h1 : (2 ^ 128 - 1 / 2) * 2 ^ k ≤ |rval r|) (h2 : |rval r| < 2 ^ 128 * 2 ^ k) :
    ∃ z, from_ratio r = pure z ∧ FValid z ∧ (fval z = -2 ^ 127 * 2 ^ k) := by
  have hk : (2 : ℚ) ^ k = ulp (k + 281474976710656).toNat := by
    rw [ulp_zpow]
    congr 1
    omega
  rw [hk] at h1 h2 ⊢
  have e := hr.eq_ofRat
  generalize rval r = v at *
  subst e
  refine ⟨_, carry_mk (by omega) h1 h2, valid_mk nrm_S (by omega), ?_⟩
  rw [fval_mk nrm_S nz_true, mg_eq, sgn_true]
  norm_num

private theorem rv {q : ℚ} : RValid (ofRat q) := rvalid_ofRat q

example : ∃ z, from_ratio (ofRat (2 ^ 128 - 1 / 4)) = pure z ∧ fval z = -2 ^ 127 := by
  obtain ⟨z, h1, -, h2⟩ := C42_from_ratio_carry (r := ofRat (2 ^ 128 - 1 / 4)) rv (k := 0) (by norm_num) (by norm_num)
    (by rw [rval_ofRat, abs_of_pos (by norm_num)]; norm_num)
    (by rw [rval_ofRat, abs_of_pos (by norm_num)]; norm_num)
  exact ⟨z, h1, h2.trans (by norm_num)⟩

/-- `2^128 - 1/4` converts to `-2^127`. -/
theorem C42_from_ratio_counterexample : ∃ r z, RValid r ∧ rval r = 2 ^ 128 - 1 / 4 ∧ from_ratio r = pure z ∧
    fval z = -2 ^ 127 := by
  obtain ⟨z, h1, -, h2⟩ := C42_from_ratio_carry (r := ofRat (2 ^ 128 - 1 / 4)) rv (k := 0) (by norm_num) (by norm_num)
    (by rw [rval_ofRat, abs_of_pos (by norm_num)]; norm_num)
    (by rw [rval_ofRat, abs_of_pos (by norm_num)]; norm_num)
  exact ⟨_, z, rv, rval_ofRat _, h1, h2.trans (by norm_num)⟩

/-- one third -/
example : ∃ z, from_ratio (ofRat (1 / 3)) = pure z ∧ Nearest z (1 / 3) := by
  have hc : NoCarry (1 / 3) := by
    intro k
    rw [abs_of_pos (by norm_num : (0 : ℚ) < 1 / 3)]
    rcases le_or_gt (-129) k with h | h
    · left
      have : (2 : ℚ) ^ (-129 : ℤ) ≤ 2 ^ k := zpow_le_zpow_right₀ (by norm_num) h
      norm_num at this ⊢
      linarith
    · right
      have : (2 : ℚ) ^ k ≤ 2 ^ (-130 : ℤ) := zpow_le_zpow_right₀ (by norm_num) (by omega)
      norm_num at this ⊢
      linarith
  have a1 : (2 : ℚ) ^ (128 - 2 ^ 48 : ℤ) ≤ 2 ^ (-2 : ℤ) := zpow_le_zpow_right₀ (by norm_num) (by norm_num)
  have a2 : (2 : ℚ) ^ (0 : ℤ) ≤ 2 ^ (127 + 2 ^ 64 - 2 ^ 48 : ℤ) := zpow_le_zpow_right₀ (by norm_num) (by norm_num)
  obtain ⟨z, h1, h2, -⟩ := C42_from_ratio_partial (r := ofRat (1 / 3)) rv
    (by rw [rval_ofRat, abs_of_pos (by norm_num)]; exact a1.trans (by norm_num))
    (by rw [rval_ofRat, abs_of_pos (by norm_num)]; exact lt_of_lt_of_le (by norm_num) a2) (by rw [rval_ofRat]; exact hc)
  rw [rval_ofRat] at h2
  exact ⟨z, h1, h2⟩

/-- Conversion to a rational is exact for exponents below `2^32`. -/
theorem C42_to_ratio_partial {x : F192} (hx : FValid x) (h : InRange x) :
    ∃ r, to_ratio x = pure r ∧ RValid r ∧ rval r = fval x := by
  by_cases hz : fval x = 0
  · rw [(fval_eq_zero hx).1 hz, fval_zero]
    exact ⟨ofRat 0, congrArg pure Ratio.zero_c, rv, rval_ofRat _⟩
  · obtain ⟨s, m, e, hm, he, hzz, rfl, hv⟩ := mk_of_not_zero hx hz
    have hM := inRange_mid hm h hzz
    rw [to_ratio_c hm hzz hM.1 hM.2, hv]
    exact ⟨_, rfl, rv, rval_ofRat _⟩

example : InRange ⟨2 ^ 127 + 2 ^ 126, 2 ^ 48 - 120⟩ ∧ FValid ⟨2 ^ 127 + 2 ^ 126, 2 ^ 48 - 120⟩ := by
  unfold InRange; decide

/-- Converting to a rational and back gives the same bits. -/
theorem C42_round_trip {x : F192} (hx : FValid x) (h : InRange x) :
    ∃ r, to_ratio x = pure r ∧ from_ratio r = pure x := by
  by_cases hz : fval x = 0
  · rw [(fval_eq_zero hx).1 hz]
    exact ⟨ofRat 0, congrArg pure Ratio.zero_c, from_ratio_zero⟩
  · obtain ⟨s, m, e, hm, he, hzz, rfl, hv⟩ := mk_of_not_zero hx hz
    have hM := inRange_mid hm h hzz
    refine ⟨_, to_ratio_c hm hzz hM.1 hM.2, ?_⟩
    have hp := mg_pos (e := e) hm
    have habs : |sgn s * mg m e| = mg m e := by rw [abs_mul, abs_sgn, one_mul, abs_of_pos hp]
    obtain ⟨m', e', a1, a2, a3, a4, a5⟩ := from_ratio_exact (q := sgn s * mg m e) (r := m) (e := e)
      (by have := hm.1; omega) hm.2 (by have := hM.1; omega) he habs
    have hs : decide (sgn s * mg m e < 0) = s := by
      cases s
      · rw [sgn_false, one_mul]; exact decide_eq_false (by linarith)
      · rw [sgn_true, neg_one_mul]; exact decide_eq_true (by linarith)
    rw [a5, hs]
    refine congrArg pure (fval_inj (valid_mk a1 (by omega)) (valid_mk hm he) ?_)
    rw [fval_mk a1 (nz_exp a3), fval_mk hm hzz, a4, habs]

example : ∃ r, to_ratio ⟨5, 2 ^ 48 - 120⟩ = pure r ∧ from_ratio r = pure ⟨5, 2 ^ 48 - 120⟩ :=
  C42_round_trip (by decide) (by unfold InRange; decide)

/-- The exponent is cut to 32 bits: `2^(127 + 2^32)` converts to `2^127`. -/
theorem C42_to_ratio_counterexample : to_ratio ⟨0, 2 ^ 48 + 2 ^ 32⟩ = to_ratio ⟨0, 2 ^ 48⟩ ∧
    FValid ⟨0, 2 ^ 48 + 2 ^ 32⟩ ∧ fval ⟨0, 2 ^ 48 + 2 ^ 32⟩ ≠ fval ⟨0, 2 ^ 48⟩ := by
  refine ⟨?_, by decide, fun hc => ?_⟩
  · rfl
  · exact absurd (fval_inj (by decide) (by decide) hc) (by decide)

/-! ## C43: rounding to integers -/

/-- The integer part, for exponents below `2^63`. -/
theorem C43_truncate_partial {x : F192} (hx : FValid x) (h : x.exp < 2 ^ 63) :
    ∃ t, F192.truncate x = pure t ∧ FValid t ∧ fval t = truncQ (fval x) := by
  by_cases hz : fval x = 0
  · rw [hz, (fval_eq_zero hx).1 hz]
    exact ⟨ZERO, rfl, by decide, by rw [fval_zero]; rfl⟩
  · obtain ⟨s, m, e, hm, he, hzz, rfl, hv⟩ := mk_of_not_zero hx hz
    rw [mk_exp] at h
    obtain ⟨t, h1, h2, h3⟩ := truncate_c hm hzz (by omega)
    exact ⟨t, h1, h2, by rw [h3, hv, truncQ_sgn (le_of_lt (mg_pos hm))]⟩

example : F192.truncate ⟨2 ^ 127 + 2 ^ 126, 2 ^ 48 - 127⟩ = pure ⟨2 ^ 127, 2 ^ 48 - 127⟩ := rfl

private theorem floor_sgn {s : Bool} {p : ℚ} :
    ((⌊sgn s * p⌋ : ℤ) : ℚ) = if s = true ∧ (⌊p⌋ : ℚ) ≠ p then -((⌊p⌋ : ℚ) + 1) else sgn s * ⌊p⌋ := by
  cases s
  · rw [if_neg (by simp), sgn_false, one_mul, one_mul]
  · rw [sgn_true, neg_one_mul, Int.floor_neg, neg_one_mul]
    by_cases hq : (⌊p⌋ : ℚ) = p
    · rw [if_neg (by simp [hq])]
      have : ⌈p⌉ = ⌊p⌋ := by conv_lhs => rw [← hq]; rw [Int.ceil_intCast]
      rw [this]; push_cast; ring
    · rw [if_pos ⟨rfl, hq⟩]
      have : ⌈p⌉ = ⌊p⌋ + 1 := by
        rw [Int.ceil_eq_iff]
        push_cast
        have h1 := Int.floor_le p
        have h2 := Int.lt_floor_add_one p
        have h3 := lt_of_le_of_ne h1 hq
        constructor <;> linarith
      rw [this]; push_cast; ring

private theorem not_sgn (s : Bool) : sgn (!s) = -sgn s := by cases s <;> simp [sgn]

/-- The floor, for exponents below `2^63`. -/
theorem C43_floor_partial {x : F192} (hx : FValid x) (h : x.exp < 2 ^ 63) :
    ∃ t, F192.floor x = pure t ∧ FValid t ∧ fval t = ⌊fval x⌋ := by
  by_cases hz : fval x = 0
  · rw [hz, (fval_eq_zero hx).1 hz]
    exact ⟨ZERO, rfl, by decide, by rw [fval_zero]; simp⟩
  · obtain ⟨s, m, e, hm, he, hzz, rfl, hv⟩ := mk_of_not_zero hx hz
    rw [mk_exp] at h
    obtain ⟨t, h1, h2, h3⟩ := floor_c hm hzz (by omega)
    exact ⟨t, h1, h2, by rw [h3, hv, floor_sgn]⟩

/-- The ceiling, for exponents below `2^63`. -/
theorem C43_ceil_partial {x : F192} (hx : FValid x) (h : x.exp < 2 ^ 63) :
    ∃ t, F192.ceil x = pure t ∧ FValid t ∧ fval t = ⌈fval x⌉ := by
  by_cases hz : fval x = 0
  · rw [hz, (fval_eq_zero hx).1 hz]
    exact ⟨ZERO, rfl, by decide, by rw [fval_zero]; simp⟩
  · obtain ⟨s, m, e, hm, he, hzz, rfl, hv⟩ := mk_of_not_zero hx hz
    rw [mk_exp] at h
    obtain ⟨t, h1, h2, h3⟩ := ceil_c hm hzz (by omega)
    refine ⟨t, h1, h2, ?_⟩
    have hf := floor_sgn (s := !s) (p := mg m e)
    rw [not_sgn, neg_mul, Int.floor_neg, Int.cast_neg, neg_eq_iff_eq_neg] at hf
    rw [h3, hv, hf]
    cases s
    · simp only [true_and, Bool.not_false]
      split_ifs <;> ring
    · simp only [Bool.not_true, reduceCtorEq, false_and, if_false]
      ring

example : ∃ t, F192.floor ⟨2 ^ 127 + 2 ^ 126, 2 ^ 48 - 127⟩ = pure t ∧ fval t = -2 := by
  obtain ⟨t, h1, -, h3⟩ := C43_floor_partial (x := ⟨2 ^ 127 + 2 ^ 126, 2 ^ 48 - 127⟩) (by decide) (by decide)
  refine ⟨t, h1, h3.trans ?_⟩
  have : fval ⟨2 ^ 127 + 2 ^ 126, 2 ^ 48 - 127⟩ = -3 / 2 := by
    refine (fval_mk (s := true) (m := 255211775190703847597530955573826158592) (e := 281474976710656 - 127)
      ⟨by norm_num, by norm_num⟩ nz_true).trans ?_
    rw [mg_coeff_sub (by norm_num), sgn_true]; norm_num
  rw [this]; norm_num

/-- Rounding to the nearest integer, a half away from zero, for exponents below `2^63`. -/
theorem C43_round_partial {x : F192} (hx : FValid x) (h : x.exp < 2 ^ 63) :
    ∃ t n, F192.round x = pure t ∧ FValid t ∧ fval t = (n : ℤ) ∧ IsRound (fval x) n := by
  by_cases hz : fval x = 0
  · rw [hz, (fval_eq_zero hx).1 hz]
    refine ⟨ZERO, 0, by rw [F192.round]; rfl, by decide, by rw [fval_zero]; simp, ?_⟩
    unfold IsRound; norm_num
  · obtain ⟨s, m, e, hm, he, hzz, rfl, hv⟩ := mk_of_not_zero hx hz
    rw [mk_exp] at h
    obtain ⟨t, h1, h2, h3⟩ := round_c hm hzz (by omega)
    have hp := mg_pos (e := e) hm
    rw [hv]
    generalize mg m e = p at *
    have f1 := Int.floor_le p
    have f2 := Int.lt_floor_add_one p
    have hn : (0 : ℚ) ≤ ⌊p⌋ := by exact_mod_cast Int.floor_nonneg.2 hp.le
    have key : ∃ k : ℤ, ((k : ℚ) = if 1 / 2 ≤ p - ⌊p⌋ then (⌊p⌋ : ℚ) + 1 else ⌊p⌋) ∧ 0 ≤ (k : ℚ) ∧
        |p - k| ≤ 1 / 2 ∧ (|p - k| = 1 / 2 → p < k) := by
      by_cases hc : 1 / 2 ≤ p - ⌊p⌋
      · refine ⟨⌊p⌋ + 1, by rw [if_pos hc]; push_cast; rfl, by push_cast; linarith, ?_, fun _ => by push_cast; linarith⟩
        push_cast
        rw [abs_le]; constructor <;> linarith
      · refine ⟨⌊p⌋, by rw [if_neg hc], hn, ?_, fun hh => ?_⟩
        · rw [abs_le]; constructor <;> linarith
        · exfalso
          rw [abs_of_nonneg (by linarith)] at hh
          linarith
    obtain ⟨k, k1, k2, k3, k4⟩ := key
    rw [← k1] at h3
    have hsk : sgn s * (k : ℚ) = ((if s then -k else k : ℤ) : ℚ) := by
      cases s <;> simp [sgn]
    refine ⟨t, if s then -k else k, h1, h2, by rw [h3, hsk], ?_⟩
    unfold IsRound
    rw [← hsk, ← mul_sub, abs_mul, abs_sgn, one_mul, abs_mul, abs_sgn, one_mul, abs_mul, abs_sgn, one_mul,
      abs_of_pos hp, abs_of_nonneg k2]
    exact ⟨k3, k4⟩

/-- one half -/
example : ∃ t n, F192.round ⟨0, 2 ^ 48 - 128⟩ = pure t ∧ FValid t ∧ fval t = (n : ℤ) ∧ IsRound (fval ⟨0, 2 ^ 48 - 128⟩) n :=
  C43_round_partial (by decide) (by norm_num)

/-- The fractional part, for exponents below `2^63`. -/
theorem C43_frac_partial {x : F192} (hx : FValid x) (h : x.exp < 2 ^ 63) (ht : x ≠ negTiny) :
    ∃ t, F192.frac x = pure t ∧ FValid t ∧ fval t = fval x - truncQ (fval x) := by
  by_cases hz : fval x = 0
  · rw [hz, (fval_eq_zero hx).1 hz]
    refine ⟨ZERO, ?_, by decide, by rw [fval_zero]; norm_num [truncQ]⟩
    rw [F192.frac]
    exact (sub_zero_left ZERO rfl)
  · obtain ⟨s, m, e, hm, he, hzz, rfl, hv⟩ := mk_of_not_zero hx hz
    rw [mk_exp] at h
    have h1 : ¬Z false m e := by
      cases s
      · exact hzz
      · exact tiny_iff hm ht
    obtain ⟨t, h1, h2, h3⟩ := frac_c hm hzz (by omega) h1
    exact ⟨t, h1, h2, by rw [h3, hv, truncQ_sgn (le_of_lt (mg_pos hm))]; ring⟩

/-- -3.5 -/
example : ∃ t, F192.frac ⟨2 ^ 127 + 3 * 2 ^ 125, 2 ^ 48 - 126⟩ = pure t ∧ FValid t ∧
    fval t = fval ⟨2 ^ 127 + 3 * 2 ^ 125, 2 ^ 48 - 126⟩ - truncQ (fval ⟨2 ^ 127 + 3 * 2 ^ 125, 2 ^ 48 - 126⟩) :=
  C43_frac_partial (by decide) (by norm_num) (by decide)

/-- The negative number of least magnitude has fractional part zero. -/
theorem C43_frac_counterexample : F192.frac negTiny = pure ZERO ∧ fval negTiny ≠ 0 ∧ truncQ (fval negTiny) = 0 := by
  have hn : negTiny = mk' true 170141183460469231731687303715884105728 0 := by decide
  have hv : fval negTiny = sgn true * mg 170141183460469231731687303715884105728 0 := by rw [hn]; exact fval_mk nrm_S nz_true
  have hp := mg_pos (e := 0) nrm_S
  refine ⟨sub_zero_tiny, ?_, ?_⟩
  · rw [hv, sgn_true]; linarith
  · have h := truncQ_sgn (s := true) (le_of_lt hp)
    have hs := mg_small (e := 0) nrm_S (by norm_num)
    rw [← hv, (Int.floor_eq_zero_iff.2 ⟨hp.le, hs⟩), Int.cast_zero, mul_zero] at h
    exact_mod_cast h

/-- `is_integer`, for exponents below `2^63`. -/
theorem C43_is_integer_partial {x : F192} (hx : FValid x) (h : x.exp < 2 ^ 63) :
    ∃ b, F192.is_integer x = pure b ∧ (b = true ↔ ∃ n : ℤ, fval x = n) := by
  by_cases hz : fval x = 0
  · rw [hz, (fval_eq_zero hx).1 hz]
    exact ⟨true, rfl, by simpa using ⟨0, by simp⟩⟩
  · obtain ⟨s, m, e, hm, he, hzz, rfl, hv⟩ := mk_of_not_zero hx hz
    rw [mk_exp] at h
    refine ⟨_, is_integer_c hm hzz (by omega), ?_⟩
    rw [decide_eq_true_eq, hv]
    constructor
    · intro hc
      refine ⟨if s then -⌊mg m e⌋ else ⌊mg m e⌋, ?_⟩
      rw [← hc]
      cases s <;> simp [sgn]
    · rintro ⟨n, hn⟩
      have : mg m e = ((if s then -n else n : ℤ) : ℚ) := by
        cases s
        · simpa [sgn] using hn
        · simp only [sgn_true, neg_one_mul] at hn
          simp only [if_true]; push_cast; linarith
      rw [this, Int.floor_intCast]

example : F192.is_integer ⟨2 ^ 125, 2 ^ 48 - 125⟩ = pure true ∧ F192.is_integer ⟨2 ^ 125, 2 ^ 48 - 126⟩ = pure false :=
  ⟨rfl, rfl⟩

/-- Large numbers: `truncate` gives zero, or panics. -/
theorem C43_truncate_counterexample : F192.truncate MAX = pure ZERO ∧ FValid MAX ∧ fval MAX ≠ 0 ∧
    Panics (F192.truncate ⟨0, 2 ^ 63⟩) := by
  refine ⟨truncate_big (s := false) (m := 340282366920938463463374607431768211455) ⟨by omega, by omega⟩ (by omega)
    (by omega), by decide, fun hc => ?_, ⟨.overflow, rfl⟩⟩
  exact absurd ((fval_eq_zero (by decide)).1 hc) (by decide)

/-! ## C59: sign and scaling -/

/-- Absolute value and negation are exact, except for the negative number of least magnitude. -/
theorem C59_sign_partial {x : F192} (hx : FValid x) (ht : x ≠ negTiny) :
    FValid (F192.abs x) ∧ fval (F192.abs x) = |fval x| ∧ FValid (F192.neg x) ∧ fval (F192.neg x) = -fval x ∧
      (F192.is_neg x = true ↔ fval x < 0) := by
  by_cases hz : fval x = 0
  · rw [hz, (fval_eq_zero hx).1 hz]
    exact ⟨by decide, by rw [_root_.abs_zero]; exact fval_zero, by decide, by rw [neg_zero]; exact fval_zero, by
      constructor
      · intro h; exact absurd h (by decide)
      · intro h; exact absurd h (lt_irrefl _)⟩
  · obtain ⟨s, m, e, hm, he, hzz, rfl, hv⟩ := mk_of_not_zero hx hz
    have h1 : ¬Z false m e := by
      cases s
      · exact hzz
      · exact tiny_iff hm ht
    have hp := mg_pos (e := e) hm
    have h2 : ¬Z (!s) m e := by
      cases s
      · exact nz_true
      · exact h1
    rw [abs_mk hm, neg_mk hm hzz, hv, fval_mk hm h1, fval_mk hm h2, is_neg_mk hm, not_sgn, abs_mul, abs_sgn, sgn_false]
    refine ⟨valid_mk hm he, by rw [abs_of_pos hp], valid_mk hm he, by ring, ?_⟩
    cases s
    · rw [sgn_false]; constructor
      · intro h; exact absurd h (by decide)
      · intro h; linarith
    · rw [sgn_true]; exact ⟨fun _ => by linarith, fun _ => rfl⟩

example : fval (F192.abs ⟨2 ^ 127 + 3 * 2 ^ 125, 2 ^ 48 - 126⟩) = |fval ⟨2 ^ 127 + 3 * 2 ^ 125, 2 ^ 48 - 126⟩| :=
  (C59_sign_partial (x := ⟨2 ^ 127 + 3 * 2 ^ 125, 2 ^ 48 - 126⟩) (by decide) (by decide)).2.1

/-- It is negated to zero. -/
theorem C59_sign_counterexample : FValid negTiny ∧ fval negTiny ≠ 0 ∧ F192.neg negTiny = ZERO ∧ F192.abs negTiny = ZERO :=
  ⟨by decide, fun hc => absurd ((fval_eq_zero (by decide)).1 hc) (by decide), by decide, by decide⟩

/-- Shifting left multiplies with a power of two, or panics. -/
theorem C59_shl {x : F192} {k : Nat} (hx : FValid x) : (fval x ≠ 0 ∧ 2 ^ 64 ≤ x.exp + k ∧ Panics (F192.shl x k)) ∨
    ∃ z, F192.shl x k = pure z ∧ FValid z ∧ fval z = fval x * 2 ^ k := by
  by_cases hz : fval x = 0
  · right
    rw [hz, (fval_eq_zero hx).1 hz, zero_mul]
    exact ⟨ZERO, rfl, by decide, fval_zero⟩
  · obtain ⟨s, m, e, hm, he, hzz, rfl, hv⟩ := mk_of_not_zero hx hz
    rw [mk_exp]
    by_cases hk : e + k < 18446744073709551616
    · right
      refine ⟨_, shl_mk hm hzz hk, valid_mk hm (by omega), ?_⟩
      rw [hv, fval_mk hm (by intro hc; exact hzz ⟨hc.1, hc.2.1, by have := hc.2.2; omega⟩), mg_add]; ring
    · left
      exact ⟨hz, by omega, ⟨_, shl_mk_panic hm hzz (by omega)⟩⟩

example : F192.shl ⟨5, 7⟩ 4 = pure ⟨5, 11⟩ ∧ Panics (F192.shl MAX 1) := ⟨rfl, .overflow, rfl⟩

/-- Shifting right divides by a power of two. -/
theorem C59_shr_partial {x : F192} {k : Nat} (hx : FValid x) (h : k < x.exp ∨ x = ZERO) :
    FValid (F192.shr x k) ∧ fval (F192.shr x k) = fval x / 2 ^ k := by
  by_cases hz : fval x = 0
  · rw [hz, (fval_eq_zero hx).1 hz, zero_div]
    have : F192.shr ZERO k = ZERO := by
      rw [F192.shr, if_pos]
      rw [is_zero_eq]; simp
    rw [this]
    exact ⟨by decide, fval_zero⟩
  · obtain ⟨s, m, e, hm, he, hzz, rfl, hv⟩ := mk_of_not_zero hx hz
    have hk : k < e := by
      rcases h with h | h
      · rwa [mk_exp] at h
      · exact absurd h.symm (zero_ne_mk hm hzz)
    rw [shr_mk hm hzz hk.le]
    refine ⟨valid_mk hm (by omega), ?_⟩
    rw [fval_mk hm (nz_exp (by omega)), hv]
    have := mg_add m (e - k) k
    rw [Nat.sub_add_cancel hk.le] at this
    rw [this, mul_div_assoc, mul_div_assoc, div_self (by positivity), mul_one]

example : F192.shr ⟨5, 7⟩ 4 = ⟨5, 3⟩ ∧ FValid ⟨5, 7⟩ := by decide

/-- Below the range it gives zero. -/
theorem C59_shr_underflow {x : F192} {k : Nat} (h : x.exp < k) : F192.shr x k = ZERO := by
  rw [F192.shr, if_pos]
  simp only [Bool.or_eq_true, decide_eq_true_eq]
  exact Or.inl h

example : F192.shr ⟨5, 7⟩ 8 = ZERO := by decide

/-- Shifting right is exact whenever the quotient is a number of the format, and gives zero otherwise. -/
theorem C59_shr {x : F192} (k : Nat) (hx : FValid x) : FValid (F192.shr x k) ∧
    ((∃ w, FValid w ∧ fval w = fval x / 2 ^ k) → fval (F192.shr x k) = fval x / 2 ^ k) ∧
    ((¬∃ w, FValid w ∧ fval w = fval x / 2 ^ k) → F192.shr x k = ZERO) := by
  by_cases hz : fval x = 0
  · obtain ⟨h1, h2⟩ := C59_shr_partial (k := k) hx (Or.inr ((fval_eq_zero hx).1 hz))
    exact ⟨h1, fun _ => h2, fun h => absurd ⟨ZERO, by decide, by rw [hz, zero_div, fval_zero]⟩ h⟩
  obtain ⟨s, m, e, hm, he, hzz, rfl, hv⟩ := mk_of_not_zero hx hz
  have hp : (0 : ℚ) < 2 ^ k := by positivity
  have hq : fval (mk' s m e) / 2 ^ k ≠ 0 := div_ne_zero hz hp.ne'
  rcases Nat.lt_or_ge e k with hk | hk
  · rw [C59_shr_underflow (by rwa [mk_exp])]
    refine ⟨by decide, ?_, fun _ => rfl⟩
    rintro ⟨w, hw, hw'⟩
    exfalso
    obtain ⟨s', m', e', hm', he', hzz', rfl, hv'⟩ := mk_of_not_zero hw (hw'.trans_ne hq)
    have h : |fval (mk' s' m' e')| = |fval (mk' s m e) / 2 ^ k| := by rw [hw']
    rw [hv', hv, abs_div, abs_mul, abs_mul, abs_sgn, abs_sgn, abs_of_pos hp, one_mul, one_mul, abs_of_pos (mg_pos hm), abs_of_pos (mg_pos hm'),
      eq_div_iff hp.ne', ← mg_add] at h
    exact absurd h (mg_lt_of_exp hm hm' (by omega)).ne'
  · rw [shr_mk hm hzz hk]
    by_cases hz0 : Z s m (e - k)
    · obtain ⟨rfl, rfl, h0⟩ := hz0
      rw [h0]
      refine ⟨by decide, ?_, fun _ => by decide⟩
      rintro ⟨w, hw, hw'⟩
      exfalso
      obtain ⟨s', m', e', hm', he', hzz', rfl, hv'⟩ := mk_of_not_zero hw (hw'.trans_ne hq)
      have hpos : 0 < fval (mk' s' m' e') := by
        rw [hw', hv, sgn_false, one_mul]
        exact div_pos (mg_pos hm) hp
      have hs : s' = false := by
        by_contra hs
        rw [Bool.not_eq_false] at hs
        subst hs
        have := mg_pos (e := e') hm'
        rw [hv', sgn_true] at hpos
        linarith
      subst hs
      have : e = 0 + k := by omega
      rw [hv', hv, this, mg_add, mul_div_assoc, mul_div_assoc, div_self hp.ne', mul_one, sgn_false, one_mul, one_mul] at hw'
      refine hzz' ⟨rfl, ?_⟩
      have a1 := (mg_lt_iff (e₁ := e') (e₂ := 0) hm' hm).not.1 hw'.not_lt
      have a2 := (mg_lt_iff (e₁ := 0) (e₂ := e') hm hm').not.1 hw'.symm.not_lt
      omega
    · have e1 : fval (mk' s m (e - k)) = fval (mk' s m e) / 2 ^ k := by
        rw [fval_mk hm hz0, hv]
        have := mg_add m (e - k) k
        rw [Nat.sub_add_cancel hk] at this
        rw [this, mul_div_assoc, mul_div_assoc, div_self (by positivity), mul_one]
      have hval : FValid (mk' s m (e - k)) := valid_mk hm (by omega)
      exact ⟨hval, fun _ => e1, fun h => absurd ⟨_, hval, e1⟩ h⟩

/-- the smallest positive power of two of the format is lost, all other quotients with exponent zero are exact -/
example : F192.shr ⟨0, 3⟩ 3 = ZERO ∧ F192.shr ⟨1, 3⟩ 3 = ⟨1, 0⟩ ∧ F192.shr ⟨2 ^ 127, 3⟩ 3 = negTiny ∧ FValid ⟨0, 3⟩ := by decide

/-- `step_epsilon` goes to the next number of larger magnitude. -/
theorem C59_step {x : F192} (hx : FValid x) (h : x.exp < 2 ^ 64 - 1) (h0 : x ≠ ZERO) :
    ∃ z, F192.step_epsilon x = pure z ∧ FValid z ∧ SignType.sign (fval z) = SignType.sign (fval x) ∧
      |fval x| < |fval z| ∧ ∀ w, FValid w → |fval x| < |fval w| → |fval z| ≤ |fval w| := by
  obtain ⟨s, m, e, hm, he, hzz, rfl, hv⟩ := mk_of_not_zero hx (fun hc => h0 ((fval_eq_zero hx).1 hc))
  rw [mk_exp] at h
  obtain ⟨m', e', a1, a2, a3, a4, a5⟩ := step_c (s := s) hm (e := e) (by omega)
  have hz' : ¬Z s m' e' := by
    rintro ⟨r1, r2, r3⟩
    subst r1 r2 r3
    obtain rfl : e = 0 := by omega
    have hm1 : (170141183460469231731687303715884105728 : Nat) ≤ m := hm.1
    have hm2 : ((170141183460469231731687303715884105728 : Nat) : ℚ) ≤ m := Nat.cast_le.2 hm1
    have := ulp_pos 0
    rw [mg_eq, mg_eq] at a5
    nlinarith
  have hp := mg_pos (e := e) hm
  have hu := ulp_pos e
  have hp' := mg_pos (e := e') a1
  refine ⟨_, a4, valid_mk a1 (by omega), ?_, ?_, fun w hw h => ?_⟩
  · rw [hv, fval_mk a1 hz']; exact sign_sgn hp' hp
  · rw [hv, fval_mk a1 hz', abs_mul, abs_mul, abs_sgn, one_mul, one_mul, abs_of_pos hp, abs_of_pos hp', a5]
    linarith
  · rw [fval_mk a1 hz', abs_mul, abs_sgn, one_mul, abs_of_pos hp', a5]
    rw [hv, abs_mul, abs_sgn, one_mul, abs_of_pos hp] at h
    by_contra hc
    push Not at hc
    have hw0 : fval w ≠ 0 := by
      intro hc; rw [hc, _root_.abs_zero] at h; linarith
    obtain ⟨s2, m2, e2, q1, q2, q3, rfl, q4⟩ := mk_of_not_zero hw hw0
    rw [q4, abs_mul, abs_sgn, one_mul, abs_of_pos (mg_pos q1)] at h hc
    exact absurd (mg_gap hm q1 hc le_rfl) (not_le.2 h)

example : F192.step_epsilon ⟨2 ^ 128 - 1, 7⟩ = pure ⟨2 ^ 127, 8⟩ ∧ FValid ⟨2 ^ 128 - 1, 7⟩ := ⟨rfl, by decide⟩

/-! ## C60: powers of two -/

/-- `ilog2` is the floor of the binary logarithm of a positive number. -/
theorem C60_ilog2_partial {x : F192} (hx : FValid x) (h : x.exp < 2 ^ 63) (h0 : 0 < fval x) :
    ∃ z, F192.ilog2 x = pure z ∧ FValid z ∧ ∃ n : ℤ, fval z = n ∧ (2 : ℚ) ^ n ≤ fval x ∧ fval x < 2 ^ (n + 1) := by
  obtain ⟨s, m, e, hm, he, hzz, rfl, hv⟩ := mk_of_not_zero hx h0.ne'
  have hp := mg_pos (e := e) hm
  have hs : s = false := by
    cases s
    · rfl
    · rw [hv, sgn_true] at h0; linarith
  subst hs
  rw [mk_exp] at h
  obtain ⟨z, z1, z2, z3⟩ := from_int_c (n := (e : ℤ) - 281474976710656 + 127) (by omega) (by omega)
  refine ⟨z, ?_, z2, _, z3, ?_, ?_⟩
  · rw [F192.ilog2, is_neg_mk hm, if_neg (by decide), is_zero_mk hm, if_neg (by simpa [Z] using hzz),
      expI64_c (by omega), pure_bind, i64Chk, if_pos (by omega), pure_bind, z1]
  · rw [hv, sgn_false, one_mul, mg_eq, ulp_zpow, zpow_add₀ (by norm_num), mul_comm]
    have : ((170141183460469231731687303715884105728 : Nat) : ℚ) ≤ m := Nat.cast_le.2 hm.1
    have hu : (0 : ℚ) < 2 ^ ((e : ℤ) - 281474976710656) := zpow_pos (by norm_num) _
    apply mul_le_mul_of_nonneg_right _ hu.le
    refine le_trans (le_of_eq ?_) this
    norm_num
  · rw [hv, sgn_false, one_mul, mg_eq, ulp_zpow, add_assoc, zpow_add₀ (by norm_num), mul_comm]
    have : (m : ℚ) < (340282366920938463463374607431768211456 : Nat) := Nat.cast_lt.2 hm.2
    have hu : (0 : ℚ) < 2 ^ ((e : ℤ) - 281474976710656) := zpow_pos (by norm_num) _
    rw [mul_comm]
    rw [mul_comm]
    apply mul_lt_mul_of_pos_left _ hu
    refine lt_of_lt_of_le this (le_of_eq ?_)
    norm_num

example : F192.ilog2 ⟨2 ^ 126, 2 ^ 48 - 122⟩ = from_int 5 := rfl

/-- Above, the exponent overflows or comes out negative; zero and negative numbers panic. -/
theorem C60_ilog2_counterexample : Panics (F192.ilog2 ⟨0, 2 ^ 63⟩) ∧ F192.ilog2 MAX = from_int (-2 ^ 48 + 126) ∧
    Panics (F192.ilog2 ZERO) := by
  refine ⟨⟨.overflow, rfl⟩, ?_, ⟨.explicit, rfl⟩⟩
  rw [F192.ilog2, if_neg (by decide), if_neg (by decide), show MAX = mk' false 340282366920938463463374607431768211455 18446744073709551615 by decide,
    expI64_big (by omega) (by omega), pure_bind,
    i64Chk, if_pos (by omega), pure_bind]
  norm_num

/-- `from_pow2 n` is `2^n`. -/
theorem C60_from_pow2_partial {n : Int} (h1 : 127 - 2 ^ 48 < n) (h2 : n < 2 ^ 63 - 2 ^ 48) :
    ∃ z, F192.from_pow2 n = pure z ∧ FValid z ∧ fval z = 2 ^ n := by
  refine ⟨mk' false 170141183460469231731687303715884105728 (n + 281474976710656 - 127).toNat, ?_, valid_mk nrm_S (by omega), ?_⟩
  · rw [F192.from_pow2, show EXP_COEFF = 281474976710656 from rfl, i64Chk, if_pos (by push_cast; omega), pure_bind, i64Chk,
      if_pos (by push_cast; omega), pure_bind, asU64]
    have : ((n + (281474976710656 : Nat) - 127) % 18446744073709551616).toNat = (n + 281474976710656 - 127).toNat := by
      push_cast; omega
    rw [this]
    rfl
  · rw [fval_mk nrm_S (nz_exp (by omega)), sgn_false, one_mul, mg_eq, ulp_zpow]
    have : (((n + 281474976710656 - 127).toNat : ℤ) - 281474976710656) = n - 127 := by omega
    rw [this]
    have h2 : ((170141183460469231731687303715884105728 : Nat) : ℚ) = 2 ^ (127 : ℤ) := by norm_num
    rw [h2, ← zpow_add₀ (by norm_num)]
    congr 1
    omega

example : F192.from_pow2 (-3) = pure ⟨0, 2 ^ 48 - 130⟩ := rfl

/-- `2^(127 - 2^48)` comes out as zero, and below that the exponent wraps around. -/
theorem C60_from_pow2_counterexample : F192.from_pow2 (127 - 2 ^ 48) = pure ZERO ∧
    F192.from_pow2 (126 - 2 ^ 48) = pure ⟨0, 2 ^ 64 - 1⟩ ∧ Panics (F192.from_pow2 (2 ^ 63 - 2 ^ 48)) := by
  exact ⟨rfl, rfl, ⟨.overflow, rfl⟩⟩

end Props
end Hmath
