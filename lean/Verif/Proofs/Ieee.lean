import Verif.Spec.Ieee
import Verif.Model.Ieee
import Verif.Proofs.Ratio
import Mathlib.Algebra.Order.Floor.Semiring

/-!
# Floats
-/

namespace Hmath
namespace Ratio

/-- what the proofs use of a format -/
structure FmtOk (f : Fmt) (m e : Nat) : Prop where
  mant : f.mant = m
  bits : f.bits = m + e + 1
  expMod : f.expMod = 2 ^ e
  bias : f.bias = floatBias e
  he : 6 ≤ e
  he' : e ≤ 11
  hm : 1 ≤ m
  hm' : m ≤ 52
  fromInt : ∀ z : Int, 0 ≤ z → z < 2 ^ (m + 1) → f.fromInt z = pure (ofInt z)
  toInt : ∀ z : Int, 0 ≤ z → z ≤ 2 ^ m → f.toInt (ofInt z) = pure (.ok z)
  scale : ∀ q : ℚ, f.scale (ofRat q) = pure (ofRat (q * 2 ^ m))

theorem f32_ok : FmtOk f32 23 8 where
  mant := rfl
  bits := rfl
  expMod := rfl
  bias := rfl
  he := by decide
  he' := by decide
  hm := by decide
  hm' := by decide
  fromInt := fun z h1 h2 => by
    show BigI.from_i32 z = _
    rw [BigI.from_i32_c (by unfold IsI32; norm_num at h2; omega) (by omega)]
  toInt := fun z h1 h2 => by
    show BigI.to_i32 (ofInt z) = _
    rw [BigI.to_i32_c, if_pos (by norm_num at h2; omega)]
  scale := fun q => by
    show mul_i32 (ofRat q) 8388608 = _
    rw [mul_i32_c _ (by unfold IsI32; omega) (by omega)]
    norm_num

theorem f64_ok : FmtOk f64 52 11 where
  mant := rfl
  bits := rfl
  expMod := rfl
  bias := rfl
  he := by decide
  he' := by decide
  hm := by decide
  hm' := by decide
  fromInt := fun z h1 h2 => by
    show BigI.from_i64 z = _
    norm_num at h2
    rw [BigI.from_i64_c (by omega) (by omega)]
  toInt := fun z h1 h2 => by
    show BigI.to_i64 (ofInt z) = _
    norm_num at h2
    rw [BigI.to_i64_c, if_pos (by omega)]
  scale := fun q => by
    show (BigI.from_i64 4503599627370496 >>= fun b => mul_bi (ofRat q) b) = _
    rw [BigI.from_i64_c (by omega) (by omega), pure_bind, mul_bi_c]
    norm_num

section
variable {f : Fmt} {m e : Nat} (h : FmtOk f m e)
include h

theorem FmtOk.bias_le : 1 ≤ floatBias e ∧ floatBias e ≤ 1023 ∧ 2 * floatBias e + 2 = 2 ^ e := by
  have h1 := h.he
  have h2 := h.he'
  interval_cases e <;> decide

/-- the last step of `from_ieee754` -/
theorem from_build (neg : Bool) {exp : Int} {k : Nat} (hk : k < 2 ^ (m + 1)) :
    (if exp ≥ f.mant then do
      let numer ← f.fromInt (k : Nat)
      let numer ← BigI.mul_pow2_mut numer (exp - f.mant).toNat
      pure (.ok (from_bi (if neg then BigI.negate_mut numer else numer)))
    else do
      let numer ← f.fromInt (k : Nat)
      let denom ← BigI.pow2 (f.mant - exp).toNat
      let r ← from_denom_and_numer denom (if neg then BigI.negate_mut numer else numer)
      pure (.ok r) : M (Except ConvErr Ratio)) =
      pure (.ok (ofRat ((if neg then -1 else 1) * k * 2 ^ (exp - m : ℤ)))) := by
  have hk' : ((k : Nat) : Int) < 2 ^ (m + 1) := by exact_mod_cast hk
  rw [h.fromInt _ (by omega) hk', h.mant]
  by_cases hx : exp ≥ m
  · rw [if_pos hx, pure_bind, BigI.mul_pow2_mut_c, pure_bind]
    obtain ⟨j, hj⟩ : ∃ j : Nat, exp - m = j := ⟨(exp - m).toNat, by omega⟩
    rw [hj, Int.toNat_natCast, zpow_natCast]
    cases neg
    · rw [if_neg (by decide), from_bi_c, if_neg (by decide)]
      push_cast
      rw [one_mul]
    · rw [if_pos rfl, BigI.negate_mut_c, from_bi_c, if_pos rfl]
      push_cast
      rw [neg_one_mul, neg_mul]
  · rw [if_neg hx, pure_bind, BigI.pow2_c, pure_bind]
    obtain ⟨j, hj⟩ : ∃ j : Nat, (m : Int) - exp = j := ⟨((m : Int) - exp).toNat, by omega⟩
    have hj2 : exp - m = -(j : Int) := by omega
    rw [hj, Int.toNat_natCast, hj2, zpow_neg, zpow_natCast]
    cases neg
    · rw [if_neg (by decide), if_neg (by decide), from_dn_c (q := 1 * k * (2 ^ j)⁻¹) (by positivity)
        (by push_cast; rw [one_mul, div_eq_mul_inv]), pure_bind]
    · rw [if_pos rfl, if_pos rfl, BigI.negate_mut_c, from_dn_c (q := -1 * k * (2 ^ j)⁻¹) (by positivity)
        (by push_cast; rw [neg_one_mul, div_eq_mul_inv]), pure_bind]

/-- the error or number for a float -/
def ofFloat : Float' → Except ConvErr Ratio
  | .finite q => .ok (ofRat q)
  | .inf neg => .error (if neg then .negInfinity else .infinity)
  | .nan => .error .notANumber

theorem from_c {b : Nat} (hb : b < 2 ^ (m + e + 1)) : from_ieee754 f b = pure (ofFloat (floatVal m e b)) := by
  obtain ⟨hb1, hb2, hb3⟩ := h.bias_le
  have hq : b / 2 ^ (m + e) < 2 := by
    rw [Nat.div_lt_iff_lt_mul (by positivity)]
    rw [pow_succ] at hb
    omega
  have hfl : b / 2 ^ m % 2 ^ e < 2 ^ e := Nat.mod_lt _ (by positivity)
  have hfr : b % 2 ^ m < 2 ^ m := Nat.mod_lt _ (by positivity)
  -- the sign
  have hneg : ¬(b / 2 ^ m % 2 ^ e = 0 ∧ b % 2 ^ m = 0) →
      (decide (b > 2 ^ (m + e)) = decide (b / 2 ^ (m + e) % 2 = 1)) := by
    intro hz
    rw [decide_eq_decide]
    constructor
    · intro h1
      have : 1 ≤ b / 2 ^ (m + e) := by
        rw [Nat.le_div_iff_mul_le (by positivity), one_mul]; exact h1.le
      generalize b / 2 ^ (m + e) = q at *
      omega
    · intro h1
      have h2 : 2 ^ (m + e) ≤ b := by
        have : 1 ≤ b / 2 ^ (m + e) := by
          generalize b / 2 ^ (m + e) = q at *
          omega
        rw [Nat.le_div_iff_mul_le (by positivity), one_mul] at this
        exact this
      refine lt_of_le_of_ne h2 ?_
      intro h3
      apply hz
      rw [← h3]
      constructor
      · rw [pow_add, Nat.mul_div_cancel_left _ (by positivity), Nat.mod_self]
      · rw [pow_add, Nat.mul_mod_right]
  unfold from_ieee754 inspect
  rw [h.mant, h.bits, h.expMod, h.bias, Nat.add_sub_cancel]
  rw [floatVal]
  simp only []
  generalize hF : b / 2 ^ m % 2 ^ e = F at *
  generalize hR : b % 2 ^ m = R at *
  by_cases h0 : F = 0
  · subst h0
    have hne : ¬ (0 = 2 ^ e - 1) := by omega
    rw [if_pos (by simp), if_neg hne, if_pos rfl]
    by_cases hr : R = 0
    · subst hr
      rw [if_pos rfl, pure_bind]
      simp only []
      rw [if_pos trivial, ofFloat]
      simp only [Nat.cast_zero, mul_zero, zero_mul]
      rw [zero_c]
    · rw [if_neg hr, hneg (by tauto), renorm, h.mant, h.bits, if_pos hfr]
      have hl := Nat.log2_self_le hr
      have hl2 : R < 2 ^ (Nat.log2 R + 1) := Nat.lt_log2_self
      have hlm : Nat.log2 R < m := (Nat.log2_lt hr).2 hfr
      obtain ⟨s, hs⟩ : ∃ s, m = Nat.log2 R + s := ⟨m - Nat.log2 R, by omega⟩
      have hs' : m - Nat.log2 R = s := by omega
      have h1 : 2 ^ m ≤ R * 2 ^ s := by
        calc 2 ^ m = 2 ^ Nat.log2 R * 2 ^ s := by rw [← pow_add, ← hs]
          _ ≤ _ := Nat.mul_le_mul_right _ hl
      have h2 : R * 2 ^ s < 2 ^ (m + 1) := by
        calc R * 2 ^ s < 2 ^ (Nat.log2 R + 1) * 2 ^ s := Nat.mul_lt_mul_of_pos_right hl2 (by positivity)
          _ = 2 ^ (m + 1) := by rw [← pow_add]; congr 1; omega
      have h3 : R * 2 ^ s < 2 ^ (m + e + 1) := lt_of_lt_of_le h2 (Nat.pow_le_pow_right (by omega) (by omega))
      rw [uSub_eq hlm.le, pure_bind, hs', uShl_eq (by omega), pure_bind, Nat.mod_eq_of_lt h3, uSub_eq h1,
        pure_bind, pure_bind, pure_bind]
      simp only []
      have hM := h.he
      have hm' := h.hm'
      rw [if_neg (by omega), show R * 2 ^ s - 2 ^ m + 2 ^ m = R * 2 ^ s by omega]
      have := from_build h (decide (b / 2 ^ (m + e) % 2 = 1)) (exp := (0 : Nat) - (floatBias e : Int) + 1 - s) h2
      rw [h.mant] at this
      rw [this, ofFloat]
      refine congrArg (fun q => pure (Except.ok (ofRat q))) ?_
      simp only [decide_eq_true_eq]
      push_cast
      rw [mul_assoc, mul_assoc, mul_assoc]
      congr 2
      rw [← zpow_natCast, ← zpow_add₀ (by norm_num)]
      congr 1
      ring
  · rw [if_neg (by omega)]
    by_cases hM : F = 2 ^ e - 1
    · rw [if_pos (by omega), if_pos hM]
      by_cases hr : R = 0
      · rw [if_pos hr, if_pos hr, hneg (by tauto)]
        by_cases hn : b / 2 ^ (m + e) % 2 = 1
        · simp only [hn, decide_true, if_true, pure_bind, ofFloat]
        · simp only [hn, decide_false, if_false, Bool.false_eq_true, pure_bind, ofFloat]
      · rw [if_neg hr, if_neg hr, pure_bind]
        rfl
    · rw [if_neg (by omega), if_neg hM, if_neg h0, hneg (by tauto), pure_bind]
      simp only []
      rw [if_neg (by omega)]
      have := from_build h (decide (b / 2 ^ (m + e) % 2 = 1)) (exp := (F : Int) - (floatBias e : Int))
        (k := R + 2 ^ m) (by rw [pow_succ]; omega)
      rw [h.mant] at this
      rw [this, ofFloat]
      refine congrArg (fun q => pure (Except.ok (ofRat q))) ?_
      simp only [decide_eq_true_eq]
      push_cast
      rw [add_comm (R : ℚ)]

end

/-! ### normalisation -/

theorem i32Add_ok {a b : Int} (h1 : -2147483648 ≤ a + b) (h2 : a + b ≤ 2147483647) : i32Add a b = pure (a + b) := by
  rw [i32Add, if_pos ⟨h1, h2⟩]

theorem halve_c : ∀ (k : Nat) (x : ℚ) (exp : Int), 0 < x → x ≤ 2 ^ k → -2147483648 ≤ exp → exp + k ≤ 2147483647 →
    ∃ j : Nat, j ≤ k ∧ halve (ofRat x) exp = pure (ofRat (x / 2 ^ j), exp + j) ∧ x / 2 ^ j ≤ 1 ∧
      (j = 0 ∨ 1 / 2 < x / 2 ^ j) := by
  intro k
  induction k with
  | zero =>
    intro x exp h0 h1 _ _
    rw [pow_zero] at h1
    refine ⟨0, le_refl _, ?_, by simpa using h1, .inl rfl⟩
    rw [halve, gt_one_c, if_neg (by simpa using h1)]
    simp
  | succ k ih =>
    intro x exp h0 h1 h2 h3
    push_cast at h3
    by_cases hx : 1 < x
    · obtain ⟨j, hj, e1, e2, e3⟩ := ih (x / 2) (exp + 1) (by linarith) (by rw [pow_succ] at h1; linarith)
        (by omega) (by omega)
      have hd : x / 2 / 2 ^ j = x / 2 ^ (j + 1) := by rw [pow_succ, div_div, mul_comm]
      refine ⟨j + 1, by omega, ?_, by rw [← hd]; exact e2, .inr ?_⟩
      · rw [halve, gt_one_c, if_pos (by simpa using hx), div_i32_mut_c _ isI32_two (by omega) (by omega), pure_bind,
          i32Add_ok (by omega) (by omega), pure_bind]
        push_cast
        rw [e1, hd]
        congr 2
        ring
      · rw [← hd]
        rcases e3 with rfl | e3
        · rw [pow_zero, div_one]; linarith
        · exact e3
    · refine ⟨0, by omega, ?_, by rw [pow_zero, div_one]; linarith, .inl rfl⟩
      rw [halve, gt_one_c, if_neg (by simpa using hx)]
      simp

theorem double_c : ∀ (k : Nat) (x : ℚ) (exp : Int), 0 < x → x < 2 → 1 ≤ x * 2 ^ k → exp ≤ 2147483647 →
    -2147483648 ≤ exp - k →
    ∃ j : Nat, j ≤ k ∧ double (ofRat x) exp = pure (ofRat (x * 2 ^ j), exp - j) ∧ 1 ≤ x * 2 ^ j ∧ x * 2 ^ j < 2 := by
  intro k
  induction k with
  | zero =>
    intro x exp h0 h2 h1 _ _
    rw [pow_zero, mul_one] at h1
    refine ⟨0, le_refl _, ?_, by simpa using h1, by simpa using h2⟩
    rw [double, lt_one_c, if_neg (by simpa using h1)]
    simp
  | succ k ih =>
    intro x exp h0 h2 h1 h3 h4
    push_cast at h4
    by_cases hx : x < 1
    · obtain ⟨j, hj, e1, e2, e3⟩ := ih (x * 2) (exp - 1) (by linarith) (by linarith) (by rw [pow_succ] at h1; linarith)
        (by omega) (by omega)
      have hd : x * 2 * 2 ^ j = x * 2 ^ (j + 1) := by rw [pow_succ]; ring
      refine ⟨j + 1, by omega, ?_, by rw [← hd]; exact e2, by rw [← hd]; exact e3⟩
      rw [double, lt_one_c, if_pos (by simpa using hx), mul_i32_mut_c _ isI32_two (by omega), pure_bind,
        i32Add_ok (by omega) (by omega), pure_bind]
      push_cast
      rw [← sub_eq_add_neg, e1, hd]
      congr 2
      ring
    · refine ⟨0, by omega, ?_, by rw [pow_zero, mul_one]; linarith, by rw [pow_zero, mul_one]; exact h2⟩
      rw [double, lt_one_c, if_neg (by simpa using hx)]
      simp

theorem zpow_split (x : ℚ) (a : Int) (j : Nat) : x / 2 ^ a / 2 ^ j = x / 2 ^ (a + j : ℤ) := by
  rw [zpow_add₀ (by norm_num), zpow_natCast, div_div]

theorem zpow_split' (x : ℚ) (a : Int) (j : Nat) : x / 2 ^ a * 2 ^ j = x / 2 ^ (a - j : ℤ) := by
  rw [zpow_sub₀ (by norm_num), zpow_natCast, div_div_eq_mul_div, mul_div_right_comm]

/-- the two loops from any starting point near one -/
theorem loops_c {x : ℚ} {al : Int} {k : Nat} (hx : 0 < x) (h1 : 1 < x / 2 ^ al * 2 ^ k) (h2 : x / 2 ^ al < 2 ^ k)
    (hk : 1 ≤ k) (hal : -2147483648 + k ≤ al) (hal' : al ≤ 2000) (hk' : k ≤ 3) :
    ∃ E : Int, (halve (ofRat (x / 2 ^ al)) al >>= fun p => double p.1 p.2) = pure (ofRat (x / 2 ^ E), E) ∧
      1 ≤ x / 2 ^ E ∧ x / 2 ^ E < 2 ∧ -2147483648 ≤ E ∧ E ≤ 2147483647 := by
  have hp : (0 : ℚ) < x / 2 ^ al := div_pos hx (zpow_pos (by norm_num) _)
  obtain ⟨i, hi, e1, e2, e3⟩ := halve_c k _ al hp h2.le (by omega) (by omega)
  have hp2 : (0 : ℚ) < x / 2 ^ al / 2 ^ i := by positivity
  have hlow : 1 ≤ x / 2 ^ al / 2 ^ i * 2 ^ k := by
    rcases e3 with rfl | e3
    · rw [pow_zero, div_one]; exact h1.le
    · have : (2 : ℚ) ^ 1 ≤ 2 ^ k := pow_le_pow_right₀ (by norm_num) hk
      rw [pow_one] at this
      nlinarith
  obtain ⟨j, hj, d1, d2, d3⟩ := double_c k _ (al + i) hp2 (by linarith) hlow (by omega) (by omega)
  rw [zpow_split] at d1 d2 d3 e1
  rw [zpow_split'] at d1 d2 d3
  exact ⟨al + i - j, by rw [e1, pure_bind]; exact d1, d2, d3, by omega, by omega⟩

theorem norm_c {x : ℚ} {al : Int} (hx : 0 < x) (h1 : 2 ^ (al - 1) < x) (h2 : x < 2 ^ (al + 1))
    (hal : -2147483648 < al) (hal' : al ≤ 2000) :
    ∃ E : Int, (prescale (ofRat x) al >>= fun p => halve p.1 p.2 >>= fun p => double p.1 p.2) =
      pure (ofRat (x / 2 ^ E), E) ∧ 1 ≤ x / 2 ^ E ∧ x / 2 ^ E < 2 ∧ -2147483648 ≤ E ∧ E ≤ 2147483647 := by
  have hz : (0 : ℚ) < 2 ^ al := zpow_pos (by norm_num) _
  have g1 : 1 < x / 2 ^ al * 2 ^ 1 := by
    rw [zpow_sub₀ (by norm_num), zpow_one, div_lt_iff₀ (by norm_num)] at h1
    rw [pow_one, div_mul_eq_mul_div, lt_div_iff₀ hz, one_mul]
    exact h1
  have g2 : x / 2 ^ al < 2 ^ 1 := by
    rw [zpow_add₀ (by norm_num), zpow_one] at h2
    rw [pow_one, div_lt_iff₀ hz, mul_comm]
    exact h2
  unfold prescale
  by_cases c1 : al < -2
  · obtain ⟨E, e1, e2⟩ := loops_c hx g1 g2 le_rfl (by omega) hal' (by omega)
    refine ⟨E, ?_, e2⟩
    obtain ⟨n, rfl⟩ : ∃ n : Nat, al = -(n : Int) := ⟨(-al).toNat, by omega⟩
    have : x * ((2 ^ n : Int) : ℚ) = x / 2 ^ (-(n : Int)) := by
      rw [zpow_neg, zpow_natCast, div_inv_eq_mul]; push_cast; rfl
    rw [if_pos c1, i32AbsU32, if_neg (by omega), pure_bind, Int.natAbs_neg, Int.natAbs_natCast, BigI.exp2_c,
      pure_bind, mul_bi_mut_c, pure_bind, pure_bind]
    simp only []
    rw [this]
    exact e1
  · rw [if_neg c1]
    by_cases c2 : al > 2
    · obtain ⟨E, e1, e2⟩ := loops_c hx g1 g2 le_rfl (by omega) hal' (by omega)
      refine ⟨E, ?_, e2⟩
      obtain ⟨n, rfl⟩ : ∃ n : Nat, al = n := ⟨al.toNat, by omega⟩
      have : x / ((2 ^ n : Int) : ℚ) = x / 2 ^ (n : Int) := by
        rw [zpow_natCast]; push_cast; rfl
      rw [if_pos c2, Int.toNat_natCast, BigI.exp2_c, pure_bind, div_bi_mut_c _ (by positivity), pure_bind, pure_bind]
      simp only []
      rw [this]
      exact e1
    · rw [if_neg c2, pure_bind]
      have hlo : (2 : ℚ) ^ (-3 : ℤ) ≤ 2 ^ (al - 1) := zpow_le_zpow_right₀ (by norm_num) (by omega)
      have hhi : (2 : ℚ) ^ (al + 1) ≤ 2 ^ (3 : ℤ) := zpow_le_zpow_right₀ (by norm_num) (by omega)
      have e0 : x / 2 ^ (0 : ℤ) = x := by simp
      have := loops_c (al := 0) (k := 3) hx (by rw [e0]; norm_num at hlo; linarith)
        (by rw [e0]; norm_num at hhi; linarith) (by omega) (by omega) (by omega) le_rfl
      rw [e0] at this
      exact this

/-! ### rounding -/

/-- rounding to the nearest integer, halves down -/
def rhd (t : ℚ) : Nat := ⌊t⌋₊ + if 1 / 2 < t - ⌊t⌋₊ then 1 else 0

theorem rhd_err {t : ℚ} (ht : 0 ≤ t) : |(rhd t : ℚ) - t| ≤ 1 / 2 := by
  have h1 := Nat.floor_le ht
  have h2 := Nat.lt_floor_add_one t
  rw [rhd, abs_le]
  split_ifs with h
  · push_cast
    constructor <;> linarith
  · push_cast
    constructor <;> linarith

theorem rhd_le {t : ℚ} {n : Nat} (h : t < n) (hn : 0 < n) : rhd t ≤ n := by
  have : ⌊t⌋₊ < n := (Nat.floor_lt' hn.ne').2 h
  rw [rhd]
  split_ifs <;> omega

theorem rhd_lt {t : ℚ} {n : Nat} (ht : 0 ≤ t) (h : t ≤ n - 1 / 2) (hn : 0 < n) : rhd t < n := by
  have h1 := Nat.floor_le ht
  have h2 := Nat.lt_floor_add_one t
  have h3 : ⌊t⌋₊ < n := (Nat.floor_lt' hn.ne').2 (by linarith)
  rw [rhd]
  split_ifs with h4
  · by_contra hc
    have : ⌊t⌋₊ + 1 = n := by omega
    have : ((⌊t⌋₊ : Nat) : ℚ) + 1 = n := by exact_mod_cast this
    linarith
  · omega

theorem rhd_nat (n : Nat) : rhd (n : ℚ) = n := by
  rw [rhd, Nat.floor_natCast, sub_self, if_neg (by norm_num), add_zero]

theorem rhd_top {t : ℚ} {n : Nat} (ht : 0 ≤ t) (h : (n : ℚ) - 1 / 2 < t) (h' : t < n) : rhd t = n := by
  have hn : 0 < n := by
    by_contra hc
    have : n = 0 := by omega
    subst this
    push_cast at h'
    linarith
  have h1 := Nat.floor_le ht
  have h2 := Nat.lt_floor_add_one t
  have h3 : ⌊t⌋₊ < n := (Nat.floor_lt' hn.ne').2 h'
  have h4 : n - 1 ≤ ⌊t⌋₊ := by
    rw [Nat.le_floor_iff ht]
    rw [Nat.cast_sub (by omega)]
    push_cast
    linarith
  have h5 : ⌊t⌋₊ + 1 = n := by omega
  have h6 : ((⌊t⌋₊ : Nat) : ℚ) + 1 = n := by exact_mod_cast h5
  rw [rhd, if_pos (by linarith)]
  exact h5

theorem mantissa_c {f : Fmt} {m e : Nat} (h : FmtOk f m e) {y : ℚ} (h1 : 1 ≤ y) (h2 : y < 2) :
    mantissa f (ofRat y) = pure (rhd ((y - 1) * 2 ^ m)) := by
  have hm : (0 : ℚ) < 2 ^ m := by positivity
  have ht : 0 ≤ (y - 1) * 2 ^ m := mul_nonneg (by linarith) hm.le
  have ht2 : (y - 1) * 2 ^ m < (2 ^ m : Nat) := by push_cast; nlinarith
  have hr := rhd_le ht2 (by positivity)
  have hfl : qtrunc ((y - 1) * 2 ^ m) = ((⌊(y - 1) * 2 ^ m⌋₊ : Nat) : Int) := by
    rw [qtrunc_nonneg _ ht, Int.natCast_floor_eq_floor ht]
  have hhalf : from_denom_and_numer_i32 2 1 = pure (ofRat (1 / 2)) := by
    rw [from_dn_i32_c isI32_two isI32_one (by omega) (by omega) (by omega)]
    norm_num
  have hup : roundUp (ofInt ((⌊(y - 1) * 2 ^ m⌋₊ : Nat) : Int))
      (decide (1 / 2 < (y - 1) * 2 ^ m - ((⌊(y - 1) * 2 ^ m⌋₊ : Nat) : Int))) =
      pure (ofInt (rhd ((y - 1) * 2 ^ m) : Nat)) := by
    rw [roundUp, rhd]
    push_cast
    by_cases hc : 1 / 2 < (y - 1) * 2 ^ m - ((⌊(y - 1) * 2 ^ m⌋₊ : Nat) : ℚ)
    · rw [if_pos (by simpa using hc), if_pos hc, BigI.add_i32_mut_c isI32_one (by omega)]
    · rw [if_neg (by simpa using hc), if_neg hc, add_zero]
  unfold mantissa
  rw [sub_i32_c _ isI32_one (by omega), pure_bind]
  push_cast
  rw [h.scale, pure_bind, truncate_and_frac_c, pure_bind, hhalf, pure_bind]
  simp only []
  rw [gt_c, pure_bind, hfl, hup, pure_bind,
    h.toInt _ (by omega) (by exact_mod_cast hr), pure_bind]
  show (pure _ : M Nat) = _
  have : ((rhd ((y - 1) * 2 ^ m) : Nat) : Int) % ((2 ^ f.bits : Nat) : Int) = (rhd ((y - 1) * 2 ^ m) : Nat) := by
    rw [← Int.natCast_mod, Nat.mod_eq_of_lt]
    refine lt_of_le_of_lt hr ?_
    rw [h.bits]
    exact Nat.pow_lt_pow_right (by omega) (by omega)
  push_cast at this
  rw [this, Int.toNat_natCast]

end Ratio
end Hmath
