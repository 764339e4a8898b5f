import Mathlib.Data.Nat.Sqrt
import Mathlib.Tactic.Linarith
import Mathlib.Tactic.Ring
import Mathlib.Tactic.LinearCombination
import Verif.Model.Funcs


/-!
# `sqrt_u64`
-/

namespace Hmath
namespace UBig

theorem sqrt_bounds (n : Nat) : Nat.sqrt n * Nat.sqrt n ≤ n ∧
    n < (Nat.sqrt n + 1) * (Nat.sqrt n + 1) := ⟨Nat.sqrt_le n, Nat.lt_succ_sqrt n⟩

theorem le_sqrt_of_sq {n r : Nat} (h : r * r ≤ n) : r ≤ Nat.sqrt n := Nat.le_sqrt.mpr h
theorem sqrt_lt_of_sq {n r : Nat} (h : n < r * r) : Nat.sqrt n < r := Nat.sqrt_lt.mpr h

theorem sq_lt_B64 {r : Nat} (h : r < B32) : r * r < B64 := by nlinarith
theorem lt_of_sq_lt_B64 {r : Nat} (h : r * r < B64) : r < B32 := by
  by_contra hc
  have : B32 * B32 ≤ r * r := Nat.mul_le_mul (by omega) (by omega)
  omega

theorem sqrtU64Up_spec (n div : Nat) (hd : 1 ≤ div) (hs : Nat.sqrt n + div < B32) :
    ∀ (k r : Nat), Nat.sqrt n + 1 ≤ r + k → r < B32 →
    ∃ r', sqrtU64Up n r div = pure r' ∧ n ≤ r' * r' ∧ r' < B32 := by
  intro k
  induction k with
  | zero =>
    intro r hk hr
    have hn : n < r * r := by
      have := (sqrt_bounds n).2
      have h2 : (Nat.sqrt n + 1) * (Nat.sqrt n + 1) ≤ r * r := Nat.mul_le_mul (by omega) (by omega)
      omega
    refine ⟨r, ?_, by omega, hr⟩
    rw [sqrtU64Up, u64Mul, uMul_eq (sq_lt_B64 hr), pure_bind, if_neg (by omega)]
  | succ k ih =>
    intro r hk hr
    by_cases hlt : r * r < n
    · have h1 : r ≤ Nat.sqrt n := le_sqrt_of_sq (by omega)
      obtain ⟨r', e, h⟩ := ih (r + div) (by omega) (by omega)
      refine ⟨r', ?_, h⟩
      rw [sqrtU64Up, u64Mul, uMul_eq (sq_lt_B64 hr), pure_bind, if_pos hlt, u64Add,
        uAdd_eq (by omega), pure_bind, e]
    · refine ⟨r, ?_, by omega, hr⟩
      rw [sqrtU64Up, u64Mul, uMul_eq (sq_lt_B64 hr), pure_bind, if_neg hlt]

theorem sqrtU64Down_spec (n div : Nat) (hd : 1 ≤ div) (hs : div ≤ Nat.sqrt n + 1) :
    ∀ (r : Nat), n ≤ r * r → r < B32 →
    ∃ r', sqrtU64Down n r div = pure r' ∧ r' ≤ Nat.sqrt n ∧ Nat.sqrt n < r' + div := by
  -- invariant: `sqrt n < r + div`
  suffices H : ∀ (k r : Nat), r ≤ k → Nat.sqrt n < r + div → r < B32 →
      ∃ r', sqrtU64Down n r div = pure r' ∧ r' ≤ Nat.sqrt n ∧ Nat.sqrt n < r' + div by
    intro r hr hb
    refine H r r le_rfl ?_ hb
    have : Nat.sqrt n ≤ r := by
      rw [← Nat.sqrt_eq r]; exact Nat.sqrt_le_sqrt hr
    omega
  intro k
  induction k with
  | zero =>
    intro r hk hi hb
    obtain rfl : r = 0 := by omega
    refine ⟨0, ?_, by omega, hi⟩
    rw [sqrtU64Down, u64Mul, uMul_eq (by omega), pure_bind, if_neg (by omega)]
  | succ k ih =>
    intro r hk hi hb
    by_cases hgt : r * r > n
    · have h1 : Nat.sqrt n < r := sqrt_lt_of_sq hgt
      obtain ⟨r', e, h⟩ := ih (r - div) (by omega) (by omega) (by omega)
      refine ⟨r', ?_, h⟩
      rw [sqrtU64Down, u64Mul, uMul_eq (sq_lt_B64 hb), pure_bind, if_pos hgt,
        uSub_eq (by omega), pure_bind, e]
    · refine ⟨r, ?_, le_sqrt_of_sq (by omega), hi⟩
      rw [sqrtU64Down, u64Mul, uMul_eq (sq_lt_B64 hb), pure_bind, if_neg hgt]

theorem sqrtNextDiv_pos (d : Nat) : 1 ≤ sqrtNextDiv d := by unfold sqrtNextDiv; split <;> omega
theorem sqrtNextDiv_le (d : Nat) : sqrtNextDiv d ≤ d / 4 + 1 := by
  unfold sqrtNextDiv; split <;> omega
theorem sqrtNextDiv_one {d : Nat} (h : sqrtNextDiv d / 4 = 0) : sqrtNextDiv d = 1 := by
  unfold sqrtNextDiv at *
  by_cases hh : d / 4 < 4
  · rw [if_pos hh]
  · rw [if_neg hh] at *; omega
theorem sqrtNextDiv_div (d : Nat) (h : sqrtNextDiv d / 4 ≠ 0) : sqrtNextDiv d = d / 4 := by
  unfold sqrtNextDiv at *
  by_cases hh : d / 4 < 4
  · rw [if_pos hh] at h; omega
  · rw [if_neg hh]

theorem sqrtU64Fin_spec (n : Nat) : ∀ (div r : Nat), 1 ≤ div → Nat.sqrt n + div < B32 →
    div ≤ 4 * Nat.sqrt n + 3 → r < B32 → sqrtU64Fin n r div = pure (Nat.sqrt n) := by
  intro div
  induction div using Nat.strong_induction_on with
  | _ div ih =>
    intro r hd hs hd4 hr
    obtain ⟨r1, e1, h1, h1'⟩ := sqrtU64Up_spec n div hd hs (Nat.sqrt n + 1) r (by omega) hr
    have hle := sqrtNextDiv_le div
    obtain ⟨r2, e2, h2, h2'⟩ := sqrtU64Down_spec n (sqrtNextDiv div) (sqrtNextDiv_pos _)
      (by omega) r1 h1 h1'
    rw [sqrtU64Fin, e1, pure_bind, e2, pure_bind]
    by_cases h0 : sqrtNextDiv div / 4 = 0
    · rw [if_pos h0]
      have := sqrtNextDiv_one h0
      rw [show r2 = Nat.sqrt n by omega]
    · rw [if_neg h0]
      have h3 := sqrtNextDiv_div div h0
      exact ih _ (by omega) r2 (by omega) (by omega) (by omega) (by omega)

/-! ### the first approximation -/

theorem sqrtFrac_spec (n l : Nat) (hl : l < 64) (h1 : 2 ^ l ≤ n) (h2 : n < 2 ^ (l + 1)) :
    ∃ F, sqrtFrac n l = pure F ∧ 2 ^ 28 ≤ F ∧ F < 2 ^ 29 ∧ F * 2 ^ l ≤ n * 2 ^ 28 ∧
      n * 2 ^ 28 < (F + 1) * 2 ^ l := by
  unfold sqrtFrac
  by_cases hl28 : l > 28
  · obtain ⟨k, rfl⟩ : ∃ k, l = 28 + k := ⟨l - 28, by omega⟩
    refine ⟨n / 2 ^ k, ?_, ?_, ?_, ?_, ?_⟩
    · rw [if_pos hl28, uSub_eq (by omega), pure_bind, show 28 + k - 28 = k by omega,
        uShr_eq (by omega)]
    · rw [Nat.le_div_iff_mul_le (by positivity), ← pow_add]; exact h1
    · rw [Nat.div_lt_iff_lt_mul (by positivity), ← pow_add]
      rwa [show 28 + k + 1 = 29 + k by omega] at h2
    · have := Nat.div_mul_le_self n (2 ^ k)
      rw [pow_add]; nlinarith
    · have := Nat.lt_div_mul_add (a := n) (b := 2 ^ k) (by positivity)
      rw [pow_add]; nlinarith
  · obtain ⟨k, hk⟩ : ∃ k, 28 = l + k := ⟨28 - l, by omega⟩
    have e : (2 : Nat) ^ l * 2 ^ k = 2 ^ 28 := by rw [← pow_add, ← hk]
    have hp : 0 < (2 : Nat) ^ k := by positivity
    have hp' : 0 < (2 : Nat) ^ l := by positivity
    have h2' : n * 2 ^ k < 2 ^ 29 := by
      rw [pow_succ] at h2; nlinarith
    refine ⟨n * 2 ^ k, ?_, ?_, h2', ?_, ?_⟩
    · rw [if_neg hl28, uSub_eq (by omega), pure_bind, show 28 - l = k by omega,
        uShl_eq (by omega), Nat.mod_eq_of_lt (by omega)]
    · rw [← e]; exact Nat.mul_le_mul_right _ h1
    · rw [← e]; exact le_of_eq (by ring)
    · rw [← e]; nlinarith

/-- polynomial estimates for `1 + x/2 - x²/8` as an approximation of `√(1+x)`,
scaled by `e` -/
theorem sqrtS_poly (e f s : Int) (he : 1000000 ≤ e) (hf0 : 0 ≤ f) (hf : f ≤ e) (hs0 : 0 ≤ s)
    (hu : 8 * e * s ≤ 8 * e ^ 2 + 4 * e * f - f ^ 2 + 8 * e)
    (hl : 8 * e ^ 2 + 4 * e * f - f ^ 2 - 4 * e ≤ 8 * e * s) :
    s ^ 2 ≤ e * (e + f) + 3 * e ∧ 121 * (e * (e + f)) ≤ 128 * (s ^ 2 + 2 * e) := by
  obtain ⟨P, hP⟩ : ∃ P, P = 8 * e ^ 2 + 4 * e * f - f ^ 2 := ⟨_, rfl⟩
  rw [← hP] at hu hl
  have he0 : 0 < e := by omega
  have hid : P ^ 2 = 64 * e ^ 3 * (e + f) - f ^ 3 * (8 * e - f) := by rw [hP]; ring
  have hP11 : P ≤ 11 * e ^ 2 := by rw [hP]; nlinarith [mul_nonneg (sub_nonneg.mpr hf) (sub_nonneg.mpr hf)]
  have hP8 : 8 * e ^ 2 ≤ P := by rw [hP]; nlinarith
  have hcub0 : 0 ≤ f ^ 3 * (8 * e - f) := by
    apply mul_nonneg (by positivity); omega
  -- f³(8e - f) ≤ 7 e³ f
  have hcub : f ^ 3 * (8 * e - f) ≤ 7 * e ^ 3 * f := by
    have h1 : f ^ 2 * (8 * e - f) ≤ 7 * e ^ 3 := by
      have : 7 * e ^ 3 - f ^ 2 * (8 * e - f) = (e - f) * (7 * e ^ 2 + 7 * e * f - f ^ 2) := by ring
      have h2 : 0 ≤ (e - f) * (7 * e ^ 2 + 7 * e * f - f ^ 2) := by
        apply mul_nonneg (by omega); nlinarith
      omega
    nlinarith
  constructor
  · have h1 : (8 * e * s) ^ 2 ≤ (P + 8 * e) ^ 2 := by
      apply pow_le_pow_left₀ (by positivity) hu
    have h2 : (P + 8 * e) ^ 2 ≤ 64 * e ^ 3 * (e + f) + 176 * e ^ 3 + 64 * e ^ 2 := by nlinarith
    have h3 : 64 * e ^ 2 * s ^ 2 ≤ 64 * e ^ 2 * (e * (e + f) + 3 * e) := by nlinarith
    exact le_of_mul_le_mul_left h3 (by positivity)
  · have h1 : (P - 4 * e) ^ 2 ≤ (8 * e * s) ^ 2 := by
      apply pow_le_pow_left₀ _ hl; nlinarith
    have h2 : 2 * P ^ 2 ≥ 121 * e ^ 3 * (e + f) := by nlinarith [mul_nonneg (pow_nonneg he0.le 3) (sub_nonneg.mpr hf)]
    have h3 : (P - 4 * e) ^ 2 ≥ P ^ 2 - 88 * e ^ 3 := by nlinarith
    have h4 : 121 * e ^ 3 * (e + f) ≤ 128 * e ^ 2 * s ^ 2 + 176 * e ^ 3 := by nlinarith
    have h5 : e ^ 2 * (121 * (e * (e + f))) ≤ e ^ 2 * (128 * (s ^ 2 + 2 * e)) := by
      have : 0 < e ^ 3 := by positivity
      nlinarith
    exact le_of_mul_le_mul_left h5 (by positivity)

/-- bounds on `s` (before the odd correction), `E = 2^28` -/
theorem sqrtS_bounds (f : Nat) (hf : f < 268435456) :
    f * f / 2147483648 ≤ f / 2 ∧
    (268435456 + f / 2 - f * f / 2147483648) ^ 2 ≤ 268435456 * (268435456 + f) + 3 * 268435456 ∧
    121 * (268435456 * (268435456 + f)) ≤
      128 * ((268435456 + f / 2 - f * f / 2147483648) ^ 2 + 2 * 268435456) := by
  have hff : f * f / 2147483648 ≤ f / 2 := by
    rw [show 2147483648 = 1073741824 * 2 from rfl, ← Nat.div_div_eq_div_mul]
    apply Nat.div_le_div_right
    apply Nat.div_le_of_le_mul
    nlinarith
  refine ⟨hff, ?_⟩
  obtain ⟨a, ha⟩ : ∃ a, a = f / 2 := ⟨_, rfl⟩
  obtain ⟨b, hb⟩ : ∃ b, b = f * f / 2147483648 := ⟨_, rfl⟩
  have hb1 : 2147483648 * b ≤ f * f := by rw [hb]; exact Nat.mul_div_le _ _
  have hb2 : f * f < 2147483648 * (b + 1) := by
    rw [hb]; exact Nat.lt_mul_div_succ _ (by norm_num)
  rw [← ha, ← hb] at hff ⊢
  obtain ⟨s, hs⟩ : ∃ s, s = 268435456 + a - b := ⟨_, rfl⟩
  rw [← hs]
  have hsb : s + b = 268435456 + a := by omega
  have h := sqrtS_poly 268435456 f s (by norm_num) (by omega) (by omega) (by omega)
    (by
      have : (s : Int) = 268435456 + a - b := by omega
      have h2 : (2147483648 : Int) * (b + 1) ≥ f * f := by exact_mod_cast hb2.le
      have h3 : (2 * a : Int) ≤ f := by omega
      rw [this]; nlinarith)
    (by
      have : (s : Int) = 268435456 + a - b := by omega
      have h2 : (2147483648 : Int) * b ≤ f * f := by exact_mod_cast hb1
      have h3 : (f : Int) ≤ 2 * a + 1 := by omega
      rw [this]; nlinarith)
  exact ⟨by exact_mod_cast h.1, by exact_mod_cast h.2⟩

theorem sqrtCombine (E F L n r s : Nat) (hE : E = 268435456) (h1 : F * L ≤ n * E)
    (h2 : n * E < (F + 1) * L) (hL : L ≤ n) (hr : (r * E) ^ 2 ≤ L * (E * F + 3 * E))
    (hr' : L * s ^ 2 ≤ ((r + 1) * E) ^ 2 + 8 * E * L)
    (hs : 121 * (E * F) ≤ 128 * (s ^ 2 + 2 * E)) :
    E * r ^ 2 ≤ n * (E + 3) ∧ 945 * n ≤ 1000 * (r + 1) ^ 2 := by
  have hE0 : 0 < E := by omega
  constructor
  · have : E * (E * r ^ 2) ≤ E * (n * (E + 3)) := by nlinarith
    exact Nat.le_of_mul_le_mul_left this hE0
  · have h3 : L * (121 * (E * F)) ≤ 128 * (((r + 1) * E) ^ 2 + 10 * E * L) := by nlinarith
    have h4 : 121 * (n * E) ≤ 128 * (r + 1) ^ 2 * E + 1401 * n := by
      have : E * (121 * (n * E)) ≤ E * (128 * (r + 1) ^ 2 * E + 1401 * n) := by nlinarith
      exact Nat.le_of_mul_le_mul_left this hE0
    subst hE
    omega

/-- the odd correction -/
theorem sqrtOdd_bounds (s s' : Nat) (hs : 268435456 ≤ s) (hs2 : s < 2 * 268435456)
    (h : s' = s * 379625062 / 268435456) :
    s' ^ 2 ≤ 2 * s ^ 2 ∧ 2 * s ^ 2 ≤ s' ^ 2 + 16 * 268435456 ∧ 268435456 ≤ s' ∧
      s' < 4 * 268435456 := by
  have h1 : s' * 268435456 ≤ s * 379625062 := by rw [h]; exact Nat.div_mul_le_self _ _
  have h2 : s * 379625062 < (s' + 1) * 268435456 := by
    omega
  refine ⟨?_, ?_, by omega, by omega⟩
  · have h3 : (s' * 268435456) ^ 2 ≤ (s * 379625062) ^ 2 := Nat.pow_le_pow_left h1 2
    nlinarith
  · nlinarith

theorem log2_bounds {n : Nat} (h : n ≠ 0) : 2 ^ Nat.log2 n ≤ n ∧ n < 2 ^ (Nat.log2 n + 1) :=
  ⟨Nat.log2_self_le h, (Nat.log2_lt h).mp (Nat.lt_succ_self _)⟩

theorem sqrtApprox_spec (n : Nat) (h0 : n ≠ 0) (hn : n < B64) :
    ∃ r, sqrtApprox n = pure r ∧ 1 ≤ r ∧ 268435456 * r ^ 2 ≤ n * 268435459 ∧
      945 * n ≤ 1000 * (r + 1) ^ 2 := by
  obtain ⟨hl1, hl2⟩ := log2_bounds h0
  have hl : Nat.log2 n < 64 := (Nat.log2_lt h0).mpr hn
  unfold sqrtApprox
  obtain ⟨l, hle⟩ : ∃ l, l = Nat.log2 n := ⟨_, rfl⟩
  simp only []
  rw [← hle] at hl1 hl2 hl ⊢
  obtain ⟨F, eF, hF1, hF2, hF3, hF4⟩ := sqrtFrac_spec n l hl hl1 hl2
  obtain ⟨f, rfl⟩ : ∃ f, F = 2 ^ 28 + f := ⟨F - 2 ^ 28, by omega⟩
  have hf : f < 268435456 := by omega
  obtain ⟨hb1, hb2, hb3⟩ := sqrtS_bounds f hf
  have hff : f * f < B64 := sq_lt_B64 (by omega)
  rw [eF, pure_bind, uSub_eq (by omega), pure_bind, show 2 ^ 28 + f - 2 ^ 28 = f by omega, u64Add,
    uAdd_eq (by omega), pure_bind, u64Mul, uMul_eq hff, pure_bind, uSub_eq (by omega), pure_bind]
  obtain ⟨s, hs⟩ : ∃ s, s = 2 ^ 28 + f / 2 - f * f / 2 ^ 31 := ⟨_, rfl⟩
  have hs1 : 268435456 ≤ s := by omega
  have hs2 : s < 2 * 268435456 := by omega
  rw [← hs]
  rw [show 268435456 + f / 2 - f * f / 2147483648 = s from hs.symm] at hb2 hb3
  have hp32 : (2 : Nat) ^ (l / 2) ≤ 2 ^ 31 := Nat.pow_le_pow_right (by omega) (by omega)
  have hX : 0 < (2 : Nat) ^ (l / 2) := by positivity
  -- the common end
  have key : ∀ s', 268435456 ≤ s' → s' < 4 * 268435456 →
      (2 ^ (l / 2) * s') ^ 2 ≤ 2 ^ l * s ^ 2 →
      2 ^ l * s ^ 2 ≤ (2 ^ (l / 2) * s') ^ 2 + 8 * 268435456 * 2 ^ l →
      ∃ r, (do
        let p ← uShl 64 1 (l / 2)
        let d ← u64Mul p s'
        pure (d / 2 ^ 28) : M Nat) = pure r ∧ 1 ≤ r ∧ 268435456 * r ^ 2 ≤ n * 268435459 ∧
      945 * n ≤ 1000 * (r + 1) ^ 2 := by
    intro s' h1 h2 h3 h4
    have hm : 2 ^ (l / 2) * s' ≤ 2 ^ 31 * (4 * 268435456) := Nat.mul_le_mul hp32 h2.le
    refine ⟨2 ^ (l / 2) * s' / 2 ^ 28, ?_, ?_, ?_⟩
    · rw [uShl_eq (by omega), pure_bind, one_mul, Nat.mod_eq_of_lt (by omega), u64Mul,
        uMul_eq (by omega), pure_bind]
    · rw [Nat.le_div_iff_mul_le (by positivity)]
      nlinarith
    · obtain ⟨D, hD⟩ : ∃ D, D = 2 ^ (l / 2) * s' := ⟨_, rfl⟩
      rw [← hD] at h3 h4 ⊢
      obtain ⟨r, hr⟩ : ∃ r, r = D / 2 ^ 28 := ⟨_, rfl⟩
      rw [← hr]
      have hr1 : r * 268435456 ≤ D := by omega
      have hr2 : D ≤ (r + 1) * 268435456 := by omega
      have q1 := Nat.pow_le_pow_left hr1 2
      have q2 := Nat.pow_le_pow_left hr2 2
      refine sqrtCombine 268435456 (2 ^ 28 + f) (2 ^ l) n r s rfl hF3 hF4 hl1 ?_ ?_ hb3
      · calc _ ≤ _ := q1
          _ ≤ _ := h3
          _ ≤ _ := Nat.mul_le_mul_left _ hb2
      · omega
  unfold sqrtOdd
  by_cases ho : l % 2 = 1
  · have hL : (2 : Nat) ^ l = 2 * (2 ^ (l / 2)) ^ 2 := by
      rw [← pow_mul, ← pow_succ']; congr 1; omega
    have hsc : s * 379625062 < B64 :=
      lt_of_le_of_lt (Nat.mul_le_mul_right _ hs2.le) (by norm_num)
    rw [if_pos ho, u64Mul, uMul_eq hsc, pure_bind, pure_bind]
    obtain ⟨t, ht⟩ : ∃ t, t = s * 379625062 / 2 ^ 28 := ⟨_, rfl⟩
    obtain ⟨g1, g2, g3, g4⟩ := sqrtOdd_bounds s t hs1 hs2 ht
    rw [← ht]
    have hX2 := Nat.mul_le_mul_left ((2 ^ (l / 2)) ^ 2) g1
    have hX3 := Nat.mul_le_mul_left ((2 ^ (l / 2)) ^ 2) g2
    refine key _ g3 g4 ?_ ?_
    · rw [hL, mul_pow]; linarith
    · rw [hL, mul_pow]; linarith
  · have hL : (2 : Nat) ^ l = (2 ^ (l / 2)) ^ 2 := by
      rw [← pow_mul]; congr 1; omega
    rw [if_neg ho, pure_bind]
    refine key _ hs1 (by omega) ?_ ?_
    · rw [hL, mul_pow]
    · rw [hL, mul_pow]; omega

/-! ### the first approximation of the largest numbers -/

/-- the first approximation of a number of at least `2^63` -/
theorem sqrtApprox_top {n : Nat} (h1 : 2 ^ 63 ≤ n) (hn : n < B64) {f : Nat}
    (hf : n / 2 ^ 35 = 2 ^ 28 + f) :
    sqrtApprox n =
      pure (8 * ((268435456 + f / 2 - f * f / 2147483648) * 379625062 / 268435456)) := by
  have hl : Nat.log2 n = 63 := (Nat.log2_eq_iff (by omega)).2 ⟨h1, by omega⟩
  have hf' : f < 268435456 := by omega
  have hb1 := (sqrtS_bounds f hf').1
  have hff : f * f < B64 := sq_lt_B64 (by omega)
  unfold sqrtApprox sqrtFrac sqrtOdd
  simp only [hl]
  rw [if_pos (by omega), uSub_eq (by omega), pure_bind, show 63 - 28 = 35 by omega,
    uShr_eq (by omega), pure_bind, hf, uSub_eq (by omega), pure_bind,
    show 2 ^ 28 + f - 2 ^ 28 = f by omega, u64Add,
    uAdd_eq (by omega), pure_bind, u64Mul, uMul_eq hff, pure_bind, uSub_eq (by omega), pure_bind]
  obtain ⟨s, hs⟩ : ∃ s, s = 2 ^ 28 + f / 2 - f * f / 2 ^ 31 := ⟨_, rfl⟩
  have hs2 : s < 2 * 268435456 := by omega
  rw [← hs, show 268435456 + f / 2 - f * f / 2147483648 = s from hs.symm]
  have hsc : s * 379625062 < B64 :=
    lt_of_le_of_lt (Nat.mul_le_mul_right _ hs2.le) (by norm_num)
  rw [if_pos trivial, uMul_eq hsc, pure_bind, pure_bind, uShl_eq (by omega), pure_bind,
    show 1 * 2 ^ (63 / 2) % 2 ^ 64 = 2147483648 by norm_num, uMul_eq (by omega), pure_bind]
  congr 1
  omega

/-- where the Newton step from that approximation reaches `2^32` -/
theorem sqrtTop_iff {n f r : Nat} (h1 : 2 ^ 64 - 2 ^ 54 ≤ n) (hn : n < B64)
    (hf : n / 2 ^ 35 = 2 ^ 28 + f)
    (hr : r = 8 * ((268435456 + f / 2 - f * f / 2147483648) * 379625062 / 268435456)) :
    (r * r + n < 2 * r * B32 ↔ n < 18432275944676888320) ∧ 4000000000 ≤ r ∧ r < 4200000000 := by
  have hfl : 267911168 ≤ f := by omega
  have hfu : f < 268435456 := by omega
  -- `f² / 2^31` between linear functions of `f`
  have hq : f * f / 2147483648 ≤ 33554432 := by
    have : f * f ≤ 268435456 * 268435456 := Nat.mul_le_mul (by omega) (by omega)
    omega
  rcases lt_trichotomy f 268014378 with h | h | h
  · -- below
    obtain ⟨d, hd⟩ : ∃ d, f + d = 268014378 := ⟨268014378 - f, by omega⟩
    have hsq : f * f / 2147483648 ≤ 33449245 := by
      have : f * f ≤ 268014378 * 268014378 := Nat.mul_le_mul (by omega) (by omega)
      omega
    have hsq2 : 33423431 ≤ f * f / 2147483648 := by
      have : 267911168 * 267911168 ≤ f * f := Nat.mul_le_mul (by omega) (by omega)
      omega
    have hrl : 4174683760 ≤ r + 6 * d + 16 := by omega
    have hru : r ≤ 4180000000 := by omega
    have hnu : n < 18432275944676888320 := by omega
    refine ⟨⟨fun _ => hnu, fun _ => ?_⟩, by omega, by omega⟩
    have hnd : n + d * 34359738368 < 18432275978156769280 := by omega
    by_cases hd1 : d = 1
    · obtain rfl : f = 268014377 := by omega
      have hr' : r = 4174683760 := by rw [hr]
      subst hr'
      omega
    · obtain ⟨u, hu⟩ : ∃ u, r + u = B32 := ⟨B32 - r, by omega⟩
      have e1 : u * u ≤ (120283552 + 6 * d) * (120283552 + 6 * d) := Nat.mul_le_mul (by omega) (by omega)
      have e2 : d * d ≤ 103210 * d := Nat.mul_le_mul_right _ (by omega)
      have e3 : (r + u) * (r + u) = B64 := by rw [hu]
      have e4 : 2 * r * B32 = 2 * (r * r) + 2 * (r * u) := by rw [← hu]; ring
      have e5 : (r + u) * (r + u) = r * r + 2 * (r * u) + u * u := by ring
      have e6 : (120283552 + 6 * d) * (120283552 + 6 * d) =
        14468132881736704 + 1443402624 * d + 36 * (d * d) := by ring
      omega
  · subst h
    have hr' : r = 4174683760 := by rw [hr]
    subst hr'
    refine ⟨by omega, by omega, by omega⟩
  · -- above
    obtain ⟨d, hd⟩ : ∃ d, f = 268014378 + d := ⟨f - 268014378, by omega⟩
    have hsq : 33449245 ≤ f * f / 2147483648 := by
      have : 268014378 * 268014378 ≤ f * f := Nat.mul_le_mul (by omega) (by omega)
      omega
    have hru : r ≤ 4174683760 + 6 * d + 16 := by omega
    have hrl : 4000000000 ≤ r := by omega
    have hnl : 18432275944676888320 ≤ n := by omega
    refine ⟨⟨fun hlt => absurd hlt ?_, fun _ => by omega⟩, by omega, by omega⟩
    have hnd : 18432275943797030912 + d * 34359738368 ≤ n := by omega
    obtain ⟨u, hu⟩ : ∃ u, r + u = B32 := ⟨B32 - r, by omega⟩
    have e0 : 120283520 ≤ u + 6 * d := by omega
    have e1 : 120283520 * 120283520 ≤ (u + 6 * d) * (u + 6 * d) := Nat.mul_le_mul e0 e0
    have e2 : d * d ≤ 421078 * d := Nat.mul_le_mul_right _ (by omega)
    have e2' : u * d ≤ 294967296 * d := Nat.mul_le_mul_right _ (by omega)
    have e3 : (r + u) * (r + u) = B64 := by rw [hu]
    have e4 : 2 * r * B32 = 2 * (r * r) + 2 * (r * u) := by rw [← hu]; ring
    have e5 : (r + u) * (r + u) = r * r + 2 * (r * u) + u * u := by ring
    have e6 : (u + 6 * d) * (u + 6 * d) = u * u + 12 * (u * d) + 36 * (d * d) := by ring
    omega

/-! ### one Newton step -/

theorem abs_diff_ge {n m : Nat} (h : m ≤ n) : u64AbsDiff n m = n - m := if_pos h
theorem abs_diff_lt {n m : Nat} (h : n < m) : u64AbsDiff n m = m - n := if_neg (by omega)

/-- the quotient of a Newton step from below -/
theorem newton_below {n r q : Nat} (hr : 0 < r) (h : r * r ≤ n) (hq : q = (n - r * r) / (2 * r)) :
    Nat.sqrt n ≤ r + q ∧ 2 * r * q + r * r ≤ n := by
  have h1 : 2 * r * q ≤ n - r * r := by rw [hq]; exact Nat.mul_div_le _ _
  have h2 : n - r * r < 2 * r * (q + 1) := by
    rw [hq]; exact Nat.lt_mul_div_succ _ (by omega)
  refine ⟨?_, by omega⟩
  apply Nat.le_of_lt_succ
  apply sqrt_lt_of_sq
  have h3 : n < r * r + 2 * r * (q + 1) := by omega
  nlinarith

/-- the quotient of a Newton step from above -/
theorem newton_above {n r q : Nat} (hr : 0 < r) (h : n ≤ r * r) (hq : q = (r * r - n) / (2 * r)) :
    Nat.sqrt n + q ≤ r ∧ 2 * r * q + n ≤ r * r := by
  have h1 : 2 * r * q ≤ r * r - n := by rw [hq]; exact Nat.mul_div_le _ _
  have h2 : 2 * r * q + n ≤ r * r := by omega
  refine ⟨?_, h2⟩
  have hqr : q ≤ r := by nlinarith
  have h3 : Nat.sqrt n ≤ r - q := by
    have : n ≤ (r - q) * (r - q) := by
      obtain ⟨t, rfl⟩ := Nat.exists_eq_add_of_le hqr
      rw [Nat.add_sub_cancel_left]
      nlinarith
    rw [← Nat.sqrt_eq (r - q)]; exact Nat.sqrt_le_sqrt this
  omega

theorem sqrtNewton_spec (n r : Nat) (hn : n < 18432275944676888320)
    (hnr : 18428729675200069632 < n → r * r + n < 2 * r * B32) (hr : 1 ≤ r)
    (hu : 268435456 * r ^ 2 ≤ n * 268435459) (hl : 945 * n ≤ 1000 * (r + 1) ^ 2) :
    ∃ r', sqrtNewton n r = pure r' ∧ Nat.sqrt n ≤ r' + 1 ∧ r' < B32 ∧ r' ≤ 8 * Nat.sqrt n + 1 ∧
      (r' = 0 → n = 1) := by
  have hrr : r * r < B64 := by nlinarith
  have hr32 := lt_of_sq_lt_B64 hrr
  have hS := sqrt_bounds n
  rw [sqrtNewton, u64Mul, uMul_eq hrr, pure_bind, uMul_eq (by omega), pure_bind,
    uDiv_eq (by omega), pure_bind]
  by_cases hgt : n > r * r
  · rw [if_pos hgt, abs_diff_ge hgt.le]
    obtain ⟨q, hq⟩ : ∃ q, q = (n - r * r) / (2 * r) := ⟨_, rfl⟩
    rw [← hq]
    obtain ⟨h1, h2⟩ := newton_below hr hgt.le hq
    have hrS : r ≤ Nat.sqrt n := le_sqrt_of_sq hgt.le
    have hq32 : r + q < B32 := by
      have hlin : r * r + n < 2 * r * B32 := by
        by_cases hn' : 18428729675200069632 < n
        · exact hnr hn'
        clear hS h1 hrS hq h2 hu hrr
        by_cases hbig : r ≤ B32 - 134217728
        · have e1 : r * r ≤ r * (B32 - 134217728) := Nat.mul_le_mul_left _ hbig
          have e2 : (r + 1) ^ 2 = r * r + 2 * r + 1 := by ring
          omega
        · obtain ⟨t, ht⟩ : ∃ t, r + t = B32 := ⟨B32 - r, by omega⟩
          have e1 : t * t ≤ 134217727 * 134217727 := Nat.mul_le_mul (by omega) (by omega)
          obtain rfl : t = B32 - r := by omega
          zify [hr32.le] at e1
          have : (n : Int) ≤ 18428729675200069632 := by exact_mod_cast not_lt.1 hn'
          zify
          nlinarith
      have e3 : 2 * r * (r + q) < 2 * r * B32 := by
        have : 2 * r * (r + q) = r * r + (2 * r * q + r * r) := by ring
        omega
      exact lt_of_mul_lt_mul_left e3 (by omega)
    have hr32' : r + 1 < B32 := by
      by_contra hc
      have : r = 4294967295 := by omega
      subst this; omega
    have hqr : q ≤ r + 3 := by
      by_contra hc
      have e1 : 2 * r * (r + 4) ≤ 2 * r * q := Nat.mul_le_mul_left _ (by omega)
      have e2 : (r + 1) ^ 2 = r * r + 2 * r + 1 := by ring
      have e3 : 2 * r * (r + 4) = 2 * (r * r) + 8 * r := by ring
      omega
    refine ⟨r + max q 1, ?_, by omega, by omega, by omega, by omega⟩
    rw [u64Add, uAdd_eq (by omega)]
  · rw [if_neg hgt]
    have hle : n ≤ r * r := by omega
    have habs : u64AbsDiff n (r * r) = r * r - n := by
      rcases Nat.lt_or_ge n (r * r) with h | h
      · exact abs_diff_lt h
      · rw [abs_diff_ge h]; omega
    rw [habs]
    obtain ⟨q, hq⟩ : ∃ q, q = (r * r - n) / (2 * r) := ⟨_, rfl⟩
    rw [← hq]
    obtain ⟨h1, h2⟩ := newton_above hr hle hq
    have hrS : r ≤ 2 * Nat.sqrt n + 1 := by
      by_contra hc
      have e1 : (2 * (Nat.sqrt n + 1)) * (2 * (Nat.sqrt n + 1)) ≤ r * r :=
        Nat.mul_le_mul (by omega) (by omega)
      have e2 : (2 * (Nat.sqrt n + 1)) * (2 * (Nat.sqrt n + 1)) =
        4 * ((Nat.sqrt n + 1) * (Nat.sqrt n + 1)) := by ring
      rw [sq] at hu
      omega
    have hq2 : 2 * q ≤ r := by
      have : r * (2 * q) ≤ r * r := by
        have : r * (2 * q) = 2 * r * q := by ring
        omega
      exact Nat.le_of_mul_le_mul_left this hr
    have hSr : Nat.sqrt n ≤ r := by omega
    refine ⟨r - max q 1, ?_, by omega, by omega, by omega, ?_⟩
    · rw [uSub_eq (by omega)]
    · intro h
      have : r = 1 := by omega
      subst this; omega

theorem sqrtDiv_spec (n r : Nat) (hr : r < B32) (hS : Nat.sqrt n ≤ r + 1)
    (hS3 : Nat.sqrt n + 3 < B32) (hr8 : r ≤ 8 * Nat.sqrt n + 1) :
    ∃ d, sqrtDiv n r = pure d ∧ 1 ≤ d ∧ Nat.sqrt n + d < B32 ∧ d ≤ 4 * Nat.sqrt n + 3 := by
  unfold sqrtDiv
  by_cases h0 : r = 0
  · exact ⟨2, by rw [if_pos h0], by omega, by omega, by omega⟩
  · rw [if_neg h0, u64Mul, uMul_eq (sq_lt_B64 hr), pure_bind, uMul_eq (by omega), pure_bind,
      uDiv_eq (by omega), pure_bind]
    have hb := sqrt_bounds n
    by_cases hge : r * r ≤ n
    · rw [abs_diff_ge hge]
      obtain ⟨q, hq⟩ : ∃ q, q = (n - r * r) / (2 * r) := ⟨_, rfl⟩
      rw [← hq]
      obtain ⟨h1, h2⟩ := newton_below (by omega) hge hq
      have hq3 : q ≤ 3 := by
        by_contra hc
        have e1 : 2 * r * 4 ≤ 2 * r * q := Nat.mul_le_mul_left _ (by omega)
        have e2 : (Nat.sqrt n + 1) * (Nat.sqrt n + 1) ≤ (r + 2) * (r + 2) :=
          Nat.mul_le_mul (by omega) (by omega)
        have e3 : (r + 2) * (r + 2) = r * r + 4 * r + 4 := by ring
        omega
      by_cases hq0 : q = 0
      · exact ⟨2, by rw [if_pos hq0], by omega, by omega, by omega⟩
      · exact ⟨q, by rw [if_neg hq0], by omega, by omega, by omega⟩
    · rw [abs_diff_lt (by omega)]
      obtain ⟨q, hq⟩ : ∃ q, q = (r * r - n) / (2 * r) := ⟨_, rfl⟩
      rw [← hq]
      obtain ⟨h1, h2⟩ := newton_above (by omega) (by omega) hq
      have hq2 : 2 * q ≤ r := by nlinarith
      by_cases hq0 : q = 0
      · exact ⟨2, by rw [if_pos hq0], by omega, by omega, by omega⟩
      · exact ⟨q, by rw [if_neg hq0], by omega, by omega, by omega⟩

/-- the first approximation at the top of the range -/
theorem sqrtApprox_big {n : Nat} (h1 : 18428729675200069632 < n) (hn : n < B64) :
    ∃ r, sqrtApprox n = pure r ∧ (r * r + n < 2 * r * B32 ↔ n < 18432275944676888320) ∧
      4000000000 ≤ r ∧ r < 4200000000 := by
  obtain ⟨f, hf⟩ : ∃ f, n / 2 ^ 35 = 2 ^ 28 + f := ⟨n / 2 ^ 35 - 2 ^ 28, by omega⟩
  exact ⟨_, sqrtApprox_top (by omega) hn hf, sqrtTop_iff (by omega) hn hf rfl⟩

/-- `sqrt_u64` returns the integer square root of every `n < 2^64 - 120283536^2`. -/
theorem sqrt_u64_eq (n : Nat) (hn : n < 18432275944676888320) :
    sqrt_u64 n = pure (Nat.sqrt n) := by
  unfold sqrt_u64
  by_cases h0 : n = 0
  · rw [if_pos h0, h0]; rfl
  · obtain ⟨r, e, h1, h2, h3⟩ := sqrtApprox_spec n h0 (by omega)
    have hnr : 18428729675200069632 < n → r * r + n < 2 * r * B32 := by
      intro hb
      obtain ⟨r2, e2, h4, -⟩ := sqrtApprox_big hb (by omega)
      rw [e] at e2
      injection e2 with e2; injection e2 with e2; subst e2
      exact h4.2 hn
    obtain ⟨r', e', g1, g2, g3, -⟩ := sqrtNewton_spec n r hn hnr h1 h2 h3
    have hS3 : Nat.sqrt n + 3 < B32 := by
      have := (sqrt_bounds n).1
      by_contra hc
      nlinarith
    obtain ⟨d, e'', f1, f2, f3⟩ := sqrtDiv_spec n r' g2 g1 hS3 g3
    rw [if_neg h0, e, pure_bind, e', pure_bind, e'', pure_bind, sqrtU64Fin_spec n d r' f1 f2 f3 g2]

/-! ### every returned value is right -/

theorem sqrtU64Up_or (n div : Nat) (hd : 1 ≤ div) :
    ∀ (k r : Nat), B32 ≤ r + k → Panics (sqrtU64Up n r div) ∨
    ∃ r', sqrtU64Up n r div = pure r' ∧ n ≤ r' * r' ∧ r' < B32 := by
  intro k
  induction k with
  | zero =>
    intro r hk
    have : ¬ r * r < B64 := fun h => by have := lt_of_sq_lt_B64 h; omega
    rw [sqrtU64Up, u64Mul, uMul, if_neg this]
    exact .inl ⟨.overflow, rfl⟩
  | succ k ih =>
    intro r hk
    rw [sqrtU64Up, u64Mul, uMul]
    split
    · rename_i h
      rw [pure_bind]
      split
      · rw [u64Add, uAdd]
        split
        · rw [pure_bind]; exact ih _ (by omega)
        · exact .inl ⟨.overflow, rfl⟩
      · rename_i h2
        exact .inr ⟨r, rfl, by omega, lt_of_sq_lt_B64 h⟩
    · exact .inl ⟨.overflow, rfl⟩

theorem sqrtU64Down_or (n div : Nat) (hd : 1 ≤ div) :
    ∀ (r : Nat), n ≤ r * r → r < B32 → Panics (sqrtU64Down n r div) ∨
    ∃ r', sqrtU64Down n r div = pure r' ∧ r' ≤ Nat.sqrt n ∧ Nat.sqrt n < r' + div := by
  suffices H : ∀ (k r : Nat), r ≤ k → Nat.sqrt n < r + div → r < B32 →
      Panics (sqrtU64Down n r div) ∨
      ∃ r', sqrtU64Down n r div = pure r' ∧ r' ≤ Nat.sqrt n ∧ Nat.sqrt n < r' + div by
    intro r hr hb
    refine H r r le_rfl ?_ hb
    have : Nat.sqrt n ≤ r := by
      rw [← Nat.sqrt_eq r]; exact Nat.sqrt_le_sqrt hr
    omega
  intro k
  induction k with
  | zero =>
    intro r hk hi hb
    obtain rfl : r = 0 := by omega
    refine .inr ⟨0, ?_, by omega, hi⟩
    rw [sqrtU64Down, u64Mul, uMul_eq (by omega), pure_bind, if_neg (by omega)]
  | succ k ih =>
    intro r hk hi hb
    rw [sqrtU64Down, u64Mul, uMul_eq (sq_lt_B64 hb), pure_bind]
    by_cases hgt : r * r > n
    · have h1 : Nat.sqrt n < r := sqrt_lt_of_sq hgt
      rw [if_pos hgt, uSub]
      split
      · rw [pure_bind]; exact ih (r - div) (by omega) (by omega) (by omega)
      · exact .inl ⟨.overflow, rfl⟩
    · rw [if_neg hgt]
      exact .inr ⟨r, rfl, le_sqrt_of_sq (by omega), hi⟩

theorem sqrtU64Fin_or (n : Nat) : ∀ (div r : Nat), 1 ≤ div →
    Panics (sqrtU64Fin n r div) ∨ sqrtU64Fin n r div = pure (Nat.sqrt n) := by
  intro div
  induction div using Nat.strong_induction_on with
  | _ div ih =>
    intro r hd
    rw [sqrtU64Fin]
    rcases sqrtU64Up_or n div hd B32 r (by omega) with ⟨p, e⟩ | ⟨r1, e1, h1, h1'⟩
    · rw [e]; exact .inl ⟨p, rfl⟩
    rw [e1, pure_bind]
    rcases sqrtU64Down_or n (sqrtNextDiv div) (sqrtNextDiv_pos _) r1 h1 h1' with
      ⟨p, e⟩ | ⟨r2, e2, h2, h2'⟩
    · rw [e]; exact .inl ⟨p, rfl⟩
    rw [e2, pure_bind]
    by_cases h0 : sqrtNextDiv div / 4 = 0
    · rw [if_pos h0]
      have := sqrtNextDiv_one h0
      rw [show r2 = Nat.sqrt n by omega]
      exact .inr rfl
    · rw [if_neg h0]
      have h3 := sqrtNextDiv_div div h0
      exact ih _ (by omega) r2 (by omega)

theorem sqrtNewton_or (n r : Nat) (h1 : 1 ≤ r) :
    Panics (sqrtNewton n r) ∨ ∃ r', sqrtNewton n r = pure r' := by
  unfold sqrtNewton u64Mul u64Add uMul uAdd uSub
  split
  · rw [pure_bind]
    split
    · rw [pure_bind, uDiv_eq (by omega), pure_bind]
      split <;> split
      · exact .inr ⟨_, rfl⟩
      · exact .inl ⟨_, rfl⟩
      · exact .inr ⟨_, rfl⟩
      · exact .inl ⟨_, rfl⟩
    · exact .inl ⟨_, rfl⟩
  · exact .inl ⟨_, rfl⟩

theorem sqrtDiv_or (n r : Nat) : Panics (sqrtDiv n r) ∨ ∃ d, sqrtDiv n r = pure d ∧ 1 ≤ d := by
  unfold sqrtDiv u64Mul uMul
  split
  · exact .inr ⟨2, rfl, by omega⟩
  · split
    · rw [pure_bind]
      split
      · rw [pure_bind, uDiv_eq (by omega), pure_bind]
        split
        · exact .inr ⟨2, rfl, by omega⟩
        · rename_i h; exact .inr ⟨_, rfl, Nat.pos_of_ne_zero h⟩
      · exact .inl ⟨_, rfl⟩
    · exact .inl ⟨_, rfl⟩

theorem sqrt_u64_or (n : Nat) (hn' : n < B64) :
    Panics (sqrt_u64 n) ∨ sqrt_u64 n = pure (Nat.sqrt n) := by
  by_cases h0 : n = 0
  · rw [sqrt_u64, if_pos h0, h0]; exact .inr rfl
  obtain ⟨r, e, h1, h2, h3⟩ := sqrtApprox_spec n h0 hn'
  rw [sqrt_u64, if_neg h0, e, pure_bind]
  rcases sqrtNewton_or n r h1 with ⟨p, e⟩ | ⟨r', e⟩
  · rw [e]; exact .inl ⟨p, rfl⟩
  rw [e, pure_bind]
  rcases sqrtDiv_or n r' with ⟨p, e⟩ | ⟨d, e, hd⟩
  · rw [e]; exact .inl ⟨p, rfl⟩
  rw [e, pure_bind]
  exact sqrtU64Fin_or n d r' hd

/-! ### where it panics -/

/-- Every `n` of `2^64 - 120283536^2` or more makes `sqrt_u64` panic: the Newton step
overshoots to a number of at least `2^32`, the square of which overflows. -/
theorem sqrt_u64_panics (n : Nat) (hn : 18432275944676888320 ≤ n) (hn' : n < B64) :
    Panics (sqrt_u64 n) := by
  obtain ⟨r, e, h1, h2, h3⟩ := sqrtApprox_big (n := n) (by omega) hn'
  have hrr : r * r < B64 := sq_lt_B64 (by omega)
  have hbig : 2 * r * B32 ≤ r * r + n := by
    by_contra hc
    have := h1.1 (by omega)
    omega
  have hsq : r * r < n := by
    have : r * r ≤ 4200000000 * 4200000000 := Nat.mul_le_mul h3.le h3.le
    omega
  have hq : B32 ≤ r + (n - r * r) / (2 * r) := by
    have : B32 - r ≤ (n - r * r) / (2 * r) := by
      rw [Nat.le_div_iff_mul_le (by omega), Nat.sub_mul]
      have e1 : B32 * (2 * r) = 2 * r * B32 := Nat.mul_comm _ _
      have e2 : r * (2 * r) = 2 * (r * r) := by ring
      omega
    omega
  obtain ⟨q, hq'⟩ : ∃ q, q = (n - r * r) / (2 * r) := ⟨_, rfl⟩
  have hq64 : q ≤ n := by rw [hq']; exact (Nat.div_le_self _ _).trans (Nat.sub_le _ _)
  rw [← hq'] at hq
  rw [sqrt_u64, if_neg (by omega), e, pure_bind, sqrtNewton, u64Mul, uMul_eq hrr, pure_bind,
    uMul_eq (by omega), pure_bind, uDiv_eq (by omega), pure_bind, if_pos hsq, abs_diff_ge hsq.le,
    ← hq', show max q 1 = q by omega]
  by_cases hadd : r + q < B64
  · rw [u64Add, uAdd_eq hadd, pure_bind, sqrtDiv, if_neg (by omega), u64Mul, uMul,
      if_neg (by
        intro h
        have := lt_of_sq_lt_B64 h
        omega)]
    exact ⟨_, rfl⟩
  · rw [u64Add, uAdd, if_neg hadd]
    exact ⟨_, rfl⟩

end UBig
end Hmath
