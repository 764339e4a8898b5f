import Verif.Model.Exp2
import Verif.Proofs.Sqrt
import Verif.Proofs.Canon
import Verif.Proofs.Print
import Verif.Proofs.DivRem
import Verif.Proofs.SciRatio
import Mathlib.Analysis.SpecialFunctions.Pow.Real
import Mathlib.Analysis.Convex.SpecificFunctions.Basic
import Mathlib.Analysis.Complex.ExponentialBounds

/-!
# Proofs about `exp2_accurate`
-/

namespace Hmath
open UBig

/-- the real power of two -/
noncomputable def p2 (x : ℝ) : ℝ := (2 : ℝ) ^ x

theorem p2_pos (x : ℝ) : 0 < p2 x := Real.rpow_pos_of_pos (by norm_num) x
theorem p2_add (x y : ℝ) : p2 (x + y) = p2 x * p2 y := Real.rpow_add (by norm_num) x y
theorem p2_zero : p2 0 = 1 := Real.rpow_zero 2
theorem p2_nat (n : Nat) : p2 n = 2 ^ n := Real.rpow_natCast 2 n
theorem p2_mono {x y : ℝ} (h : x ≤ y) : p2 x ≤ p2 y := Real.rpow_le_rpow_of_exponent_le (by norm_num) h
theorem p2_one : p2 1 = 2 := Real.rpow_one 2
theorem p2_exp (x : ℝ) : p2 x = Real.exp (Real.log 2 * x) := Real.rpow_def_of_pos (by norm_num) x

/-- `f` is `2^(62+x)` up to a relative error -/
structure Near (f : Nat) (x ε : ℝ) : Prop where
  lo : 4611686018427387904 ≤ f
  hi : f ≤ 9223372036854775808
  ge : p2 x * 4611686018427387904 * (1 - ε) ≤ f
  le : (f : ℝ) ≤ p2 x * 4611686018427387904 * (1 + ε)

theorem Near.mono {f : Nat} {x ε ε' : ℝ} (h : Near f x ε) (h' : ε ≤ ε') : Near f x ε' := by
  have := p2_pos x
  refine ⟨h.lo, h.hi, le_trans ?_ h.ge, le_trans h.le ?_⟩
  · exact mul_le_mul_of_nonneg_left (by linarith) (by positivity)
  · exact mul_le_mul_of_nonneg_left (by linarith) (by positivity)

theorem Near.mid {s b : Nat} {x y ε : ℝ} (h0 : 0 ≤ x) (h1 : 0 ≤ y) (hε : 0 ≤ ε) (hε' : ε ≤ 1) (hs : Near s x ε) (hb : Near b y ε) :
    Near (Nat.sqrt (s * b)) ((x + y) / 2) (ε + 1 / 4611686018427387904) := by
  have u1 : Nat.sqrt (s * b) * Nat.sqrt (s * b) ≤ s * b := Nat.sqrt_le _
  have u2 : s * b < (Nat.sqrt (s * b) + 1) * (Nat.sqrt (s * b) + 1) := Nat.lt_succ_sqrt _
  have u3 : 4611686018427387904 ≤ Nat.sqrt (s * b) := Nat.le_sqrt.2 (Nat.mul_le_mul hs.lo hb.lo)
  have u4 : Nat.sqrt (s * b) ≤ 9223372036854775808 := by
    have := Nat.sqrt_le_sqrt (Nat.mul_le_mul hs.hi hb.hi)
    rwa [Nat.sqrt_eq] at this
  generalize Nat.sqrt (s * b) = m at *
  have e : p2 ((x + y) / 2) ^ 2 = p2 x * p2 y := by
    rw [← p2_add, sq, ← p2_add]; congr 1; ring
  have hm1 : 1 ≤ p2 ((x + y) / 2) := by rw [← p2_zero]; exact p2_mono (by linarith)
  obtain ⟨P, hP⟩ : ∃ P, p2 ((x + y) / 2) = P := ⟨_, rfl⟩
  have v1 : (m : ℝ) * m ≤ s * b := by exact_mod_cast u1
  have v2 : (s : ℝ) * b < (m + 1) * (m + 1) := by exact_mod_cast u2
  have px := p2_pos x
  have py := p2_pos y
  have s0 : (0 : ℝ) ≤ s := Nat.cast_nonneg _
  have b0 : (0 : ℝ) ≤ b := Nat.cast_nonneg _
  rw [hP] at e hm1
  refine ⟨u3, u4, ?_, ?_⟩
  · rw [hP]
    have : P * 4611686018427387904 * (1 - ε) ≤ m + 1 := by
      refine le_of_pow_le_pow_left₀ (n := 2) (by norm_num) (by positivity) ?_
      calc (P * 4611686018427387904 * (1 - ε)) ^ 2 = (p2 x * 4611686018427387904 * (1 - ε)) * (p2 y * 4611686018427387904 * (1 - ε)) := by
            linear_combination (4611686018427387904 * (1 - ε)) ^ 2 * e
        _ ≤ s * b := mul_le_mul hs.ge hb.ge (mul_nonneg (by positivity) (by linarith)) s0
        _ ≤ (m + 1) * (m + 1) := v2.le
        _ = _ := (sq _).symm
    linarith
  · rw [hP]
    have : (m : ℝ) ≤ P * 4611686018427387904 * (1 + ε) := by
      refine le_of_pow_le_pow_left₀ (n := 2) (by norm_num) (by positivity) ?_
      calc (m : ℝ) ^ 2 = m * m := sq _
        _ ≤ s * b := v1
        _ ≤ (p2 x * 4611686018427387904 * (1 + ε)) * (p2 y * 4611686018427387904 * (1 + ε)) := mul_le_mul hs.le hb.le b0 (by positivity)
        _ = (P * 4611686018427387904 * (1 + ε)) ^ 2 := by linear_combination -(4611686018427387904 * (1 + ε)) ^ 2 * e
    refine this.trans (mul_le_mul_of_nonneg_left (by norm_num) (by positivity))

namespace UBig

theorem sqrt_near {s b : Nat} (h1 : 4611686018427387904 ≤ s) (h2 : 4611686018427387904 ≤ b) (h3 : s ≤ 9223372036854775808)
    (h4 : b ≤ 9223372036854775808) : UBig.sqrt (ofNat (s * b)) = pure (ofNat (Nat.sqrt (s * b))) := by
  have l1 : (ofNat (s * b)).length = 4 := by
    have g1 : (ofNat (s * b)).length ≤ 4 := by
      rw [length_ofNat_le_iff (by norm_num)]
      exact lt_of_le_of_lt (Nat.mul_le_mul h3 h4) (by norm_num)
    have g2 : 3 < (ofNat (s * b)).length := by
      rw [length_ofNat_gt_iff (by norm_num)]
      exact le_trans (by norm_num) (Nat.mul_le_mul h1 h2)
    omega
  refine UBig.sqrt_c _ ?_
  rw [UBig.topPart, l1]
  refine (Nat.div_le_div_right (Nat.mul_le_mul h3 h4)).trans_lt ?_
  norm_num

theorem expLoop_c (k : Nat) : ∀ {s b u : Nat} {x δ ε : ℝ}, Near s x ε → Near b (x + δ) ε → s ≤ b → 0 ≤ x → 0 ≤ δ → 0 ≤ ε → u ≤ 8388608 →
    ε + k / 4611686018427387904 ≤ 1 →
    ∃ (s' b' u' : Nat) (x' : ℝ), expLoop k (ofNat s) (ofNat b) u = pure (ofNat s', ofNat b', u') ∧
      Near s' x' (ε + k / 4611686018427387904) ∧ Near b' (x' + δ / 2 ^ k) (ε + k / 4611686018427387904) ∧ s' ≤ b' ∧ u' ≤ 8388608 ∧
      x' + δ / 2 ^ k * (u' / 8388608) = x + δ * (u / 8388608) ∧ 0 ≤ x' ∧ (u = 0 → s' = s ∧ u' = 0) := by
  induction k with
  | zero =>
    intro s b u x δ ε hs hb h0 h1 h2 h3 h4 h5
    exact ⟨s, b, u, x, rfl, by simpa using hs, by simpa using hb, h0, h4, by simp, h1, fun h => ⟨rfl, h⟩⟩
  | succ k ih =>
    intro s b u x δ ε hs hb h0 h1 h2 h3 h4 h5
    push_cast at h5
    have hk : (0 : ℝ) ≤ k := Nat.cast_nonneg _
    have hm := Near.mid h1 (by linarith) h3 (by linarith [div_nonneg (by linarith : (0 : ℝ) ≤ k + 1) (by norm_num : (0 : ℝ) ≤ 4611686018427387904)]) hs hb
    have e4 : ε + 1 / 4611686018427387904 + k / 4611686018427387904 = ε + ((k + 1 : Nat) : ℝ) / 4611686018427387904 := by push_cast; ring
    have e5 : δ / 2 ^ (k + 1) = δ / 2 / 2 ^ k := by rw [pow_succ]; field_simp
    have e6 : (x + (x + δ)) / 2 = x + δ / 2 := by ring
    rw [e6] at hm
    have m1 : s ≤ Nat.sqrt (s * b) := Nat.le_sqrt.2 (Nat.mul_le_mul_left _ h0)
    have m2 : Nat.sqrt (s * b) ≤ b := by
      have := Nat.sqrt_le_sqrt (Nat.mul_le_mul_right b h0)
      rwa [Nat.sqrt_eq] at this
    rw [expLoop, expRound, mul_c, pure_bind, sqrt_near hs.lo hb.lo hs.hi hb.hi, pure_bind, ← e4, e5]
    by_cases h : u > 4194304
    · rw [if_pos h, pure_bind]
      obtain ⟨s', b', u', x', r1, r2, r3, r4, r5, r6, r7, r8⟩ := ih (u := (u - 4194304) * 2) (δ := δ / 2) hm
        (by rw [add_assoc, add_halves]; exact hb.mono (by norm_num)) m2 (by linarith) (by linarith) (by positivity) (by omega)
        (by rw [e4]; push_cast; exact h5)
      refine ⟨s', b', u', x', r1, r2, r3, r4, r5, ?_, r7, fun h0 => by omega⟩
      rw [r6]
      have : (((u - 4194304) * 2 : Nat) : ℝ) = (u - 4194304) * 2 := by
        rw [Nat.cast_mul, Nat.cast_sub h.le]; norm_num
      rw [this]; ring
    · rw [if_neg h, pure_bind]
      obtain ⟨s', b', u', x', r1, r2, r3, r4, r5, r6, r7, r8⟩ := ih (u := u * 2) (δ := δ / 2) (hs.mono (by norm_num)) hm
        m1 (by linarith) (by linarith) (by positivity) (by omega)
        (by rw [e4]; push_cast; exact h5)
      refine ⟨s', b', u', x', r1, r2, r3, r4, r5, ?_, r7, fun h0 => r8 (by omega)⟩
      rw [r6]; push_cast; ring

/-- what the table has to satisfy -/
def tableOk (N : Nat) : Nat → List Nat → Bool
  | _, [] => true
  | i, t :: ts => decide ((t - 1) ^ N < 2 ^ (62 * N + i)) && decide (2 ^ (62 * N + i) < (t + 1) ^ N) &&
      decide (4611686018427387904 ≤ t) && decide (t ≤ 9223372036854775808) && tableOk N (i + 1) ts

/-- every entry is at most the next -/
def tableUp : List Nat → Bool
  | a :: b :: l => decide (a ≤ b) && tableUp (b :: l)
  | _ => true

theorem table_ok : tableOk 512 0 EXP_TABLE = true := by decide +kernel
theorem table_len : EXP_TABLE.length = 513 := by decide +kernel
theorem table_up : tableUp EXP_TABLE = true := by decide +kernel

theorem tableOk_get {N : Nat} : ∀ {l : List Nat} {i j : Nat} (h : j < l.length), tableOk N i l = true →
    (l[j] - 1) ^ N < 2 ^ (62 * N + (i + j)) ∧ 2 ^ (62 * N + (i + j)) < (l[j] + 1) ^ N ∧ 4611686018427387904 ≤ l[j] ∧
      l[j] ≤ 9223372036854775808
  | [], i, j, h, _ => absurd h (by simp)
  | t :: ts, i, j, h, ht => by
    simp only [tableOk, Bool.and_eq_true, decide_eq_true_eq] at ht
    obtain ⟨⟨⟨⟨h1, h2⟩, h3⟩, h4⟩, h5⟩ := ht
    cases j with
    | zero => exact ⟨h1, h2, h3, h4⟩
    | succ j =>
      have := tableOk_get (l := ts) (i := i + 1) (j := j) (by simpa using h) h5
      rw [List.getElem_cons_succ, show i + (j + 1) = i + 1 + j by omega]
      exact this

theorem tableUp_get : ∀ {l : List Nat} {j : Nat} (h : j + 1 < l.length), tableUp l = true → l[j] ≤ l[j + 1]
  | [], j, h, _ => absurd h (by simp)
  | [a], j, h, _ => absurd h (by simp)
  | a :: b :: l, j, h, ht => by
    simp only [tableUp, Bool.and_eq_true, decide_eq_true_eq] at ht
    cases j with
    | zero => exact ht.1
    | succ j => exact tableUp_get (l := b :: l) (j := j) (by simpa using h) ht.2

theorem p2_pow {N : Nat} (hN : N ≠ 0) (i : Nat) : (p2 ((i : ℝ) / N) * 4611686018427387904) ^ N = 2 ^ (62 * N + i) := by
  have hN' : (N : ℝ) ≠ 0 := by exact_mod_cast hN
  rw [mul_pow, p2, ← Real.rpow_natCast, ← Real.rpow_mul (by norm_num), div_mul_cancel₀ _ hN', Real.rpow_natCast, add_comm, pow_add,
    show (4611686018427387904 : ℝ) = 2 ^ 62 by norm_num, ← pow_mul]

theorem near_of_pow {N t i : Nat} (hN : N ≠ 0) (h1 : (t - 1) ^ N < 2 ^ (62 * N + i)) (h2 : 2 ^ (62 * N + i) < (t + 1) ^ N)
    (h3 : 4611686018427387904 ≤ t) (h4 : t ≤ 9223372036854775808) : Near t ((i : ℝ) / N) (1 / 4611686018427387904) := by
  have e := p2_pow hN i
  have hp : 1 ≤ p2 ((i : ℝ) / N) := by rw [← p2_zero]; exact p2_mono (by positivity)
  obtain ⟨P, hP⟩ : ∃ P, p2 ((i : ℝ) / N) = P := ⟨_, rfl⟩
  rw [hP] at e hp
  have h1' : ((t : ℝ) - 1) ^ N < 2 ^ (62 * N + i) := by
    have : (((t - 1 : Nat) : ℝ)) ^ N < 2 ^ (62 * N + i) := by exact_mod_cast h1
    rwa [Nat.cast_sub (by omega), Nat.cast_one] at this
  have h2' : 2 ^ (62 * N + i) < ((t : ℝ) + 1) ^ N := by exact_mod_cast h2
  rw [← e] at h1' h2'
  have g1 := lt_of_pow_lt_pow_left₀ _ (by positivity) h1'
  have g2 := lt_of_pow_lt_pow_left₀ _ (by positivity) h2'
  clear h1' h2' e h1 h2
  refine ⟨h3, h4, ?_, ?_⟩
  · have : P * 4611686018427387904 * (1 - 1 / 4611686018427387904) = P * 4611686018427387904 - P := by ring
    rw [hP]; linarith
  · have : P * 4611686018427387904 * (1 + 1 / 4611686018427387904) = P * 4611686018427387904 + P := by ring
    rw [hP]; linarith

theorem table_near {i : Nat} (h : i < EXP_TABLE.length) : Near EXP_TABLE[i] ((i : ℝ) / 512) (1 / 4611686018427387904) := by
  obtain ⟨h1, h2, h3, h4⟩ := tableOk_get h table_ok
  rw [Nat.zero_add] at h1 h2
  have := near_of_pow (N := 512) (by norm_num) h1 h2 h3 h4
  exact_mod_cast this

end UBig

/-- the chord of the exponential function -/
theorem chord {δ t : ℝ} (h0 : 0 ≤ δ) (h1 : δ ≤ 1 / 16384) (t0 : 0 ≤ t) (t1 : t ≤ 1) :
    p2 (δ * t) ≤ 1 + t * (p2 δ - 1) ∧ 1 + t * (p2 δ - 1) ≤ p2 (δ * t) * (1 + 224 / 10 ^ 12) := by
  have hd : 1 ≤ p2 δ := by rw [← p2_zero]; exact p2_mono h0
  constructor
  · have := rpow_one_add_le_one_add_mul_self (s := p2 δ - 1) (p := t) (by linarith) t0 t1
    rw [add_sub_cancel, p2, ← Real.rpow_mul (by norm_num)] at this
    exact this
  · have l1 := Real.log_two_lt_d9
    have l0 := Real.log_two_gt_d9
    obtain ⟨L, hL⟩ : ∃ L, L = Real.log 2 * δ := ⟨_, rfl⟩
    have L0 : 0 ≤ L := by rw [hL]; exact mul_nonneg (by linarith) h0
    have L1 : L ≤ 0.0000423068 := by
      rw [hL]
      calc Real.log 2 * δ ≤ 0.6931471808 * (1 / 16384) := mul_le_mul l1.le h1 h0 (by norm_num)
        _ ≤ _ := by norm_num
    have e1 : p2 δ = Real.exp L := by rw [p2_exp, hL]
    have e2 : p2 (δ * t) = Real.exp (L * t) := by rw [p2_exp, hL]; congr 1; ring
    have b1 : Real.exp L ≤ 1 + L + L ^ 2 / 2 + L ^ 3 := by
      have := Real.exp_bound' L0 (by linarith) (n := 3) (by norm_num)
      simp only [Finset.sum_range_succ, Finset.sum_range_zero, Nat.factorial] at this
      norm_num at this
      have p3 : 0 ≤ L ^ 3 := by positivity
      linarith
    have b2 : 1 + L * t + (L * t) ^ 2 / 2 ≤ Real.exp (L * t) := Real.quadratic_le_exp_of_nonneg (mul_nonneg L0 t0)
    rw [e1, e2]
    have b3 : (1 : ℝ) ≤ Real.exp (L * t) := Real.one_le_exp (mul_nonneg L0 t0)
    have c1 : L ^ 2 ≤ 0.0000423068 ^ 2 := pow_le_pow_left₀ L0 L1 2
    have c2 : L ^ 3 ≤ 0.0000423068 ^ 3 := pow_le_pow_left₀ L0 L1 3
    have c3 : t * (Real.exp L - 1) ≤ t * (L + L ^ 2 / 2 + L ^ 3) := mul_le_mul_of_nonneg_left (by linarith) t0
    have c4 : t * (1 - t) ≤ 1 / 4 := by nlinarith [sq_nonneg (t - 1 / 2)]
    have c5 : t * (1 - t) * L ^ 2 ≤ 1 / 4 * L ^ 2 := mul_le_mul_of_nonneg_right c4 (by positivity)
    have c6 : t * L ^ 3 ≤ 1 * L ^ 3 := mul_le_mul_of_nonneg_right t1 (by positivity)
    have c7 : t * (L + L ^ 2 / 2 + L ^ 3) = L * t + (L * t) ^ 2 / 2 + t * (1 - t) * L ^ 2 / 2 + t * L ^ 3 := by ring
    norm_num at c1 c2
    linarith

/-- interpolation between two values -/
theorem Near.interp {s b u : Nat} {x δ ε : ℝ} (hs : Near s x ε) (hb : Near b (x + δ) ε) (hsb : s ≤ b) (hx : 0 ≤ x) (h0 : 0 ≤ δ) (h1 : δ ≤ 1 / 16384)
    (hu : u ≤ 8388608) (hε : ε = 6 / 4611686018427387904) :
    p2 (x + δ * (u / 8388608)) * 4611686018427387904 * (1 - 1 / 2 ^ 59) ≤ (s + (b - s) * u / 8388608 : Nat) ∧
      ((s + (b - s) * u / 8388608 : Nat) : ℝ) ≤ p2 (x + δ * (u / 8388608)) * 4611686018427387904 * (1 + 1 / 2 ^ 32) := by
  obtain ⟨t, ht⟩ : ∃ t : ℝ, t = (u : ℝ) / 8388608 := ⟨_, rfl⟩
  have t0 : 0 ≤ t := by rw [ht]; positivity
  have t1 : t ≤ 1 := by
    rw [ht, div_le_one (by norm_num)]; exact_mod_cast hu
  obtain ⟨c1, c2⟩ := chord h0 h1 t0 t1
  rw [← ht, p2_add]
  have px := p2_pos x
  have px1 : 1 ≤ p2 x := by rw [← p2_zero]; exact p2_mono hx
  have pt1 : 1 ≤ p2 (δ * t) := by rw [← p2_zero]; exact p2_mono (mul_nonneg h0 t0)
  have g1 := hs.ge
  have g2 := hs.le
  have g3 := hb.ge
  have g4 := hb.le
  rw [p2_add] at g3 g4
  have f1 : (((b - s) * u / 8388608 : Nat) : ℝ) ≤ (b - s) * t := by
    have := Nat.cast_div_le (α := ℝ) (m := (b - s) * u) (n := 8388608)
    rw [Nat.cast_mul, Nat.cast_sub hsb] at this
    rw [ht]
    refine this.trans (le_of_eq ?_)
    push_cast; ring
  have f2 : ((b : ℝ) - s) * t - 1 ≤ ((b - s) * u / 8388608 : Nat) := by
    have h : (b - s) * u < ((b - s) * u / 8388608 + 1) * 8388608 := by
      have := Nat.lt_div_mul_add (a := (b - s) * u) (b := 8388608) (by norm_num)
      omega
    have h' : (((b - s) * u : Nat) : ℝ) < ((((b - s) * u / 8388608 : Nat) : ℝ) + 1) * 8388608 := by exact_mod_cast h
    rw [Nat.cast_mul, Nat.cast_sub hsb] at h'
    have : ((b : ℝ) - s) * t = (b - s) * u / 8388608 := by rw [ht]; ring
    rw [this]
    have := (div_lt_iff₀ (by norm_num : (0 : ℝ) < 8388608)).2 h'
    linarith
  rw [Nat.cast_add]
  generalize (((b - s) * u / 8388608 : Nat) : ℝ) = d at *
  generalize (s : ℝ) = s at *
  generalize (b : ℝ) = b at *
  generalize p2 x = X at *
  generalize p2 δ = D at *
  generalize p2 (δ * t) = E at *
  have k1 : s + (b - s) * t = s * (1 - t) + b * t := by ring
  have m1 : s * (1 - t) ≤ X * 4611686018427387904 * (1 + ε) * (1 - t) := mul_le_mul_of_nonneg_right g2 (by linarith)
  have m2 : b * t ≤ X * D * 4611686018427387904 * (1 + ε) * t := mul_le_mul_of_nonneg_right g4 t0
  have m3 : X * 4611686018427387904 * (1 - ε) * (1 - t) ≤ s * (1 - t) := mul_le_mul_of_nonneg_right g1 (by linarith)
  have m4 : X * D * 4611686018427387904 * (1 - ε) * t ≤ b * t := mul_le_mul_of_nonneg_right g3 t0
  have XE : 1 ≤ X * E := one_le_mul_of_one_le_of_one_le px1 pt1
  constructor
  · have n1 : X * 4611686018427387904 * (1 - ε) * E ≤ X * 4611686018427387904 * (1 - ε) * (1 + t * (D - 1)) :=
      mul_le_mul_of_nonneg_left c1 (mul_nonneg (by positivity) (by rw [hε]; norm_num))
    have n2 : X * 4611686018427387904 * (1 - ε) * (1 + t * (D - 1)) =
      X * 4611686018427387904 * (1 - ε) * (1 - t) + X * D * 4611686018427387904 * (1 - ε) * t := by ring
    have n3 : X * E * 4611686018427387904 * (1 - 1 / 2 ^ 59) ≤ X * 4611686018427387904 * (1 - ε) * E - 1 := by
      have : X * 4611686018427387904 * (1 - ε) * E - 1 = X * E * 4611686018427387904 * (1 - 1 / 2 ^ 59) + (2 * (X * E) - 1) := by
        rw [hε]; ring
      linarith
    linarith
  · have n1 : X * 4611686018427387904 * (1 + ε) * (1 + t * (D - 1)) ≤ X * 4611686018427387904 * (1 + ε) * (E * (1 + 224 / 10 ^ 12)) :=
      mul_le_mul_of_nonneg_left c2 (mul_nonneg (by positivity) (by rw [hε]; norm_num))
    have n2 : X * 4611686018427387904 * (1 + ε) * (1 + t * (D - 1)) =
      X * 4611686018427387904 * (1 + ε) * (1 - t) + X * D * 4611686018427387904 * (1 + ε) * t := by ring
    have n3 : X * 4611686018427387904 * (1 + ε) * (E * (1 + 224 / 10 ^ 12)) = X * E * 4611686018427387904 * ((1 + ε) * (1 + 224 / 10 ^ 12)) := by
      ring
    have n4 : X * E * 4611686018427387904 * ((1 + ε) * (1 + 224 / 10 ^ 12)) ≤ X * E * 4611686018427387904 * (1 + 1 / 2 ^ 32) :=
      mul_le_mul_of_nonneg_left (by rw [hε]; norm_num) (by linarith)
    linarith

namespace UBig

theorem expParts_c (n : Nat) : ∃ f : Nat, expParts (ofNat n) = pure (ofNat (n / 4294967296), ofNat f) ∧
    p2 ((n % 4294967296 : Nat) / 4294967296) * 4611686018427387904 * (1 - 1 / 2 ^ 59) ≤ f ∧
    (f : ℝ) ≤ p2 ((n % 4294967296 : Nat) / 4294967296) * 4611686018427387904 * (1 + 1 / 2 ^ 32) ∧
    (n % 4294967296 = 0 → f = 4611686018427387904) := by
  obtain ⟨v, hv⟩ : ∃ v, v = n % 4294967296 := ⟨_, rfl⟩
  have v1 : v < 4294967296 := by omega
  have e1 : n - n / 4294967296 * 4294967296 = v := by omega
  have i1 : v / 8388608 < EXP_TABLE.length := by rw [table_len]; omega
  have i2 : v / 8388608 + 1 < EXP_TABLE.length := by rw [table_len]; omega
  have t1 := table_near i1
  have t2 := table_near i2
  have t3 := tableUp_get i2 table_up
  have ed : (((v / 8388608 + 1 : Nat) : ℝ)) / 512 = ((v / 8388608 : Nat) : ℝ) / 512 + 1 / 512 := by push_cast; ring
  rw [ed] at t2
  obtain ⟨s, b, u, x, r1, r2, r3, r4, r5, r6, r7, r8⟩ := expLoop_c 5 (u := v % 8388608) t1 t2 t3 (by positivity) (by norm_num) (by norm_num) (by omega)
    (by norm_num)
  have ex : x + 1 / 512 / 2 ^ 5 * ((u : ℝ) / 8388608) = (v : ℝ) / 4294967296 := by
    rw [r6]
    have : (v : ℝ) = 8388608 * (v / 8388608 : Nat) + (v % 8388608 : Nat) := by exact_mod_cast (Nat.div_add_mod v 8388608).symm
    rw [this]; ring
  have hi := Near.interp r2 r3 r4 r7 (by norm_num) (by norm_num) r5 (by norm_num)
  rw [ex] at hi
  refine ⟨s + (b - s) * u / 8388608, ?_, hv ▸ hi.1, hv ▸ hi.2, ?_⟩
  · have b1 : B32 = 4294967296 := rfl
    have b2 : u % B32 = u := Nat.mod_eq_of_lt (by omega)
    rw [expParts, shift_right_c, shift_left_c, pow_one, b1, sub_c (by omega), pure_bind, e1, to_u64_c, pure_bind,
      if_pos (lt_trans v1 (by decide))]
    simp only [unwrapR, pure_bind]
    rw [idx_eq i1, pure_bind, idx_eq i2, pure_bind, from_u64_eq (lt_of_le_of_lt t1.hi (by decide)), from_u64_eq (lt_of_le_of_lt t2.hi (by decide)),
      r1, pure_bind]
    simp only
    rw [sub_c r4, pure_bind, ← b1, b2, mul_u32_c (by omega), pure_bind, div_u32_c (by decide) (by decide), pure_bind, add_mut_c, pure_bind]
  · intro h0
    have v0 : v = 0 := by omega
    obtain ⟨q1, q2⟩ := r8 (by omega)
    subst v0
    rw [q2, Nat.mul_zero, Nat.zero_div, Nat.add_zero, q1]
    rfl

theorem exp2_accurate_c {n : Nat} (hn : n < 2 ^ 96) : ∃ r : Nat, exp2_accurate (ofNat n) = pure (ofNat r) ∧
    p2 ((n : ℝ) / 4294967296) * (1 - 1 / 2 ^ 59) - 1 / 2 - 1 / 2 ^ 30 ≤ r ∧
    (r : ℝ) ≤ p2 ((n : ℝ) / 4294967296) * (1 + 1 / 2 ^ 32) + 1 / 2 ∧ (n % 4294967296 = 0 → r = 2 ^ (n / 4294967296)) := by
  obtain ⟨f, h1, h2, h3, h4⟩ := expParts_c n
  have b1 : B32 = 4294967296 := rfl
  have b2 : B64 = 18446744073709551616 := rfl
  obtain ⟨q, hq⟩ : ∃ q, q = 2 ^ (n / 4294967296) * f / 4294967296 := ⟨_, rfl⟩
  have hr := rem_pow2_eq (a := ofNat q) (k := 30) (valid_ofNat _) (by norm_num)
  rw [val_ofNat, show 2 ^ 30 = 1073741824 by norm_num] at hr
  have hc : exp2_accurate (ofNat n) = pure (ofNat (q / 1073741824 + if q % 1073741824 > 536870912 then 1 else 0)) := by
    rw [exp2_accurate, h1, pure_bind]
    simp only
    rw [to_u64_c, pure_bind, if_pos (by omega)]
    simp only [unwrapR, pure_bind]
    rw [exp2_eq, pure_bind, mul_c, pure_bind, shift_right_c, pow_one, b1, ← hq, div_u32_c (by decide) (by decide), pure_bind, hr, pure_bind,
      idx_zero_ofNat, pure_bind, Nat.mod_eq_of_lt (b := B32) (by omega)]
    by_cases h : q % 1073741824 > 536870912
    · rw [if_pos h, if_pos h, add_u32_c (by decide)]
    · rw [if_neg h, if_neg h, Nat.add_zero]
  refine ⟨_, hc, ?_⟩
  obtain ⟨r, hr'⟩ : ∃ r, r = q / 1073741824 + if q % 1073741824 > 536870912 then 1 else 0 := ⟨_, rfl⟩
  have a1 : q ≤ r * 1073741824 + 536870912 ∧ r * 1073741824 ≤ q + 536870912 := by
    rw [hr']; split <;> omega
  have a1l : (q : ℝ) ≤ r * 1073741824 + 536870912 := by exact_mod_cast a1.1
  have a1r : (r : ℝ) * 1073741824 ≤ q + 536870912 := by exact_mod_cast a1.2
  have a2 : q * 4294967296 ≤ 2 ^ (n / 4294967296) * f ∧ 2 ^ (n / 4294967296) * f < (q + 1) * 4294967296 := by
    rw [hq]; constructor <;> omega
  have a2l : (q : ℝ) * 4294967296 ≤ 2 ^ (n / 4294967296) * f := by exact_mod_cast a2.1
  have a2r : (2 : ℝ) ^ (n / 4294967296) * f ≤ (q + 1) * 4294967296 := by exact_mod_cast a2.2.le
  have ep : p2 ((n : ℝ) / 4294967296) = 2 ^ (n / 4294967296) * p2 ((n % 4294967296 : Nat) / 4294967296) := by
    rw [← p2_nat, ← p2_add]
    congr 1
    have : (n : ℝ) = 4294967296 * (n / 4294967296 : Nat) + (n % 4294967296 : Nat) := by exact_mod_cast (Nat.div_add_mod n 4294967296).symm
    linarith
  rw [← hr', ep]
  generalize p2 ((n % 4294967296 : Nat) / 4294967296) = E at *
  have e2 : (0 : ℝ) < 2 ^ (n / 4294967296) := by positivity
  have m1 : (2 : ℝ) ^ (n / 4294967296) * (E * 4611686018427387904 * (1 - 1 / 2 ^ 59)) ≤ 2 ^ (n / 4294967296) * f := mul_le_mul_of_nonneg_left h2 e2.le
  have m2 : (2 : ℝ) ^ (n / 4294967296) * f ≤ 2 ^ (n / 4294967296) * (E * 4611686018427387904 * (1 + 1 / 2 ^ 32)) := mul_le_mul_of_nonneg_left h3 e2.le
  refine ⟨?_, ?_, ?_⟩
  · generalize (2 : ℝ) ^ (n / 4294967296) = A at *
    linarith
  · generalize (2 : ℝ) ^ (n / 4294967296) = A at *
    linarith
  · intro h0
    have := h4 h0
    subst this
    have hq' : q = 2 ^ (n / 4294967296) * 1073741824 := by rw [hq]; omega
    rw [hr', hq', Nat.mul_mod_left, if_neg (by norm_num), Nat.mul_div_cancel _ (by norm_num), Nat.add_zero]

theorem exp2_accurate_panics {n : Nat} (hn : 2 ^ 96 ≤ n) : exp2_accurate (ofNat n) = throw .unwrap := by
  obtain ⟨f, h1, -⟩ := expParts_c n
  have b2 : B64 = 18446744073709551616 := rfl
  rw [exp2_accurate, h1, pure_bind]
  simp only
  rw [to_u64_c, pure_bind, if_neg (by omega)]
  rfl

end UBig


open Ratio (LogOk logOk_real) in
/-- the logarithm, the other way round -/
theorem logOk_p2 {T n r : Nat} (hT : T = 2 ^ 32) (hn : 0 < n) (h : LogOk T n r) :
    p2 ((r : ℝ) / 4294967296) ≤ n ∧ n < p2 (((r : ℝ) + 2) / 4294967296) := by
  obtain ⟨h1, h2⟩ := logOk_real hn h
  have hn' : (0 : ℝ) < n := by exact_mod_cast hn
  have hT' : (T : ℝ) = 4294967296 := by rw [hT]; norm_num
  rw [hT'] at h1 h2
  constructor
  · rw [p2_exp, ← Real.le_log_iff_exp_le hn']
    linarith
  · rw [p2_exp, ← Real.log_lt_iff_lt_exp hn']
    linarith

theorem p2_small {k : ℝ} (h0 : 0 ≤ k) : p2 (k / 4294967296) * (1 - k * 0.7 / 4294967296) ≤ 1 := by
  have l1 := Real.log_two_lt_d9
  have l0 := Real.log_two_gt_d9
  have h1 : 1 - k * 0.7 / 4294967296 ≤ p2 (-(k / 4294967296)) := by
    rw [p2_exp]
    refine le_trans ?_ (Real.add_one_le_exp _)
    nlinarith
  calc _ ≤ p2 (k / 4294967296) * p2 (-(k / 4294967296)) := mul_le_mul_of_nonneg_left h1 (p2_pos _).le
    _ = 1 := by rw [← p2_add, add_neg_cancel, p2_zero]

namespace UBig

theorem exp2_log2_c {m : Nat} (h0 : 0 < m) (h1 : m ≤ 1073741824) :
    ∃ r, log2_accurate (ofNat m) = pure r ∧ exp2_accurate r = pure (ofNat m) := by
  obtain ⟨T, hT⟩ : ∃ T : Nat, T = 2 ^ 32 := ⟨_, rfl⟩
  obtain ⟨r, e1, e2, e3, e4⟩ := log2_accurate_aux (E := T) (K := 16) m h0 hT rfl (hT.trans (by norm_num))
    (lt_of_le_of_lt h1 (lt_of_lt_of_le (by norm_num : 1073741824 < 2 ^ 31) (Nat.pow_le_pow_right (by norm_num) (by omega))))
  obtain ⟨g1, g2⟩ := logOk_p2 hT h0 (r := r) ⟨e3, e4⟩
  obtain ⟨v, f1, f2, f3, -⟩ := exp2_accurate_c (n := r) (by omega)
  refine ⟨_, e1, ?_⟩
  rw [f1]
  have sm := p2_small (k := 2) (by norm_num)
  rw [add_div, p2_add] at g2
  have hm : (m : ℝ) ≤ 1073741824 := by exact_mod_cast h1
  have hm0 : (1 : ℝ) ≤ m := by exact_mod_cast h0
  have pp := p2_pos ((r : ℝ) / 4294967296)
  have k1 : (m : ℝ) * (1 - 2 * 0.7 / 4294967296) ≤ p2 ((r : ℝ) / 4294967296) := by
    calc (m : ℝ) * (1 - 2 * 0.7 / 4294967296) ≤ p2 (r / 4294967296) * p2 (2 / 4294967296) * (1 - 2 * 0.7 / 4294967296) :=
          mul_le_mul_of_nonneg_right g2.le (by norm_num)
      _ = p2 (r / 4294967296) * (p2 (2 / 4294967296) * (1 - 2 * 0.7 / 4294967296)) := by ring
      _ ≤ p2 (r / 4294967296) * 1 := mul_le_mul_of_nonneg_left sm pp.le
      _ = _ := mul_one _
  generalize p2 ((r : ℝ) / 4294967296) = P at *
  have a1 : (v : ℝ) < m + 1 := by linarith
  have a2 : (m : ℝ) < v + 1 := by linarith
  have a1' : v < m + 1 := by exact_mod_cast a1
  have a2' : m < v + 1 := by exact_mod_cast a2
  rw [show v = m by omega]

end UBig

end Hmath
