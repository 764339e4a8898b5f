import Verif.Proofs.Fp192Trigo
import Verif.Proofs.AsinReal

/-!
# 192-bit floating point numbers: inverse sine and inverse tangent
-/

namespace Hmath
namespace F192

open Props

/-! ### relative errors -/

theorem rel_mul {x X y Y α β : ℚ} (hX : 0 ≤ X) (hY : 0 ≤ Y) (hx : |x - X| ≤ α * X) (hy : |y - Y| ≤ β * Y) :
    |x * y - X * Y| ≤ (α + β + α * β) * (X * Y) := by
  have e : x * y - X * Y = (x - X) * Y + X * (y - Y) + (x - X) * (y - Y) := by ring
  have h1 : |(x - X) * Y| ≤ α * X * Y := by rw [abs_mul, abs_of_nonneg hY]; exact mul_le_mul_of_nonneg_right hx hY
  have h2 : |X * (y - Y)| ≤ X * (β * Y) := by rw [abs_mul, abs_of_nonneg hX]; exact mul_le_mul_of_nonneg_left hy hX
  have h3 : |(x - X) * (y - Y)| ≤ (α * X) * (β * Y) := by
    rw [abs_mul]; exact mul_le_mul hx hy (abs_nonneg _) ((abs_nonneg _).trans hx)
  rw [e]
  refine (abs_add_le _ _).trans ((add_le_add (abs_add_le _ _) le_rfl).trans ((add_le_add (add_le_add h1 h2) h3).trans (le_of_eq ?_)))
  ring

theorem rel_trans {z w W γ δ : ℚ} (hW : 0 ≤ W) (hγ : 0 ≤ γ) (hz : |z - w| ≤ γ * |w|) (hw : |w - W| ≤ δ * W) :
    |z - W| ≤ (γ + δ + γ * δ) * W := by
  have h1 : |w| ≤ W + δ * W := by
    have := abs_sub_abs_le_abs_sub w W
    rw [abs_of_nonneg hW] at this
    linarith
  have := mul_le_mul_of_nonneg_left h1 hγ
  refine (abs_sub_le _ _ _).trans ((add_le_add (hz.trans this) hw).trans (le_of_eq ?_))
  ring

theorem rel_scale {x X a δ : ℚ} (ha : 0 ≤ a) (h : |x - X| ≤ δ * X) : |x * a - X * a| ≤ δ * (X * a) := by
  rw [← sub_mul, abs_mul, abs_of_nonneg ha, ← mul_assoc]
  exact mul_le_mul_of_nonneg_right h ha

theorem rel_divide {x X b δ : ℚ} (hb : 0 < b) (h : |x - X| ≤ δ * X) : |x / b - X / b| ≤ δ * (X / b) := by
  rw [← sub_div, abs_div, abs_of_pos hb, ← mul_div_assoc]
  exact div_le_div_of_nonneg_right h hb.le

/-! ### operations with ranges -/

theorem sign_nonneg' {a b : ℚ} (h : SignType.sign a = SignType.sign b) (hb : 0 ≤ b) : 0 ≤ a := by
  rcases hb.eq_or_lt with hb | hb
  · rw [← hb, sign_zero, sign_eq_zero_iff] at h; exact h.ge
  · rw [sign_pos hb, sign_eq_one_iff] at h; exact h.le

theorem mulI {K : ℤ} {x : F192} (hx : Rng K x) {a : ℤ} (h0 : 0 < a) (h1 : a < 2 ^ 31) (hK : K ≤ 2 ^ 40) :
    Panics (F192.mul_i32 x a) ∨ ∃ z, F192.mul_i32 x a = pure z ∧ Rng (K + 32) z ∧ |fval z - fval x * a| ≤ 1 / 2 ^ 127 * |fval x * a| ∧
      (0 ≤ fval x → 0 ≤ fval z) := by
  have ha : (1 : ℚ) ≤ a := by exact_mod_cast h0
  have ha' : (a : ℚ) ≤ 2 ^ 31 := by exact_mod_cast h1.le
  rcases C41_mul_i32_returned (a := a) hx.1 ⟨by omega, by omega⟩ (by
    rcases hx.exp with h | h
    · right; exact (fval_eq_zero hx.1).1 h
    · left; omega) with h | ⟨z, z1, ⟨z2, z3, z4, -⟩, ⟨-, -, z5⟩⟩
  · exact Or.inl h
  refine Or.inr ⟨z, z1, ⟨z2, ?_⟩, z5, fun h => sign_nonneg' z3 (by positivity)⟩
  rcases hx.2 with h | ⟨c, d⟩
  · left
    rw [h, zero_mul, _root_.abs_zero] at z4
    exact abs_eq_zero.1 (le_antisymm z4 (abs_nonneg _))
  right
  have e1 : (2 : ℚ) ^ (-(K + 32)) = 2 ^ (-K) * (1 / 2 ^ 32) := by
    rw [show (1 / 2 ^ 32 : ℚ) = 2 ^ (-32 : ℤ) by norm_num, ← zpow_add₀ (by norm_num)]
    congr 1; ring
  have e2 : (2 : ℚ) ^ (K + 32) = 2 ^ K * 2 ^ 32 := by
    rw [show (2 ^ 32 : ℚ) = 2 ^ (32 : ℤ) by norm_num, ← zpow_add₀ (by norm_num)]
  have hp0 : (0 : ℚ) < 2 ^ (-K) := zpow_pos (by norm_num) _
  rw [abs_mul, abs_of_pos (show (0 : ℚ) < a by linarith)] at z4 z5
  rw [e1, e2]
  have hx0 := abs_nonneg (fval x)
  have lo : |fval x| ≤ |fval x| * a := le_mul_of_one_le_right hx0 ha
  have hi : |fval x| * a ≤ |fval x| * 2 ^ 31 := mul_le_mul_of_nonneg_left ha' hx0
  constructor
  · have t := abs_sub_abs_le_abs_sub (fval x * a) (fval z)
    rw [abs_sub_comm, abs_mul, abs_of_pos (show (0 : ℚ) < a by linarith)] at t
    generalize (2 : ℚ) ^ (-K) = u at *
    norm_num at z5 ⊢
    linarith
  · have := hi.trans (mul_le_mul_of_nonneg_right d (show (0 : ℚ) ≤ 2 ^ 31 by norm_num))
    have h2 : (2 : ℚ) ^ K * 2 ^ 31 ≤ 2 ^ K * 2 ^ 32 := mul_le_mul_of_nonneg_left (by norm_num) (zpow_pos (by norm_num) _).le
    exact z4.trans (this.trans h2)

theorem rng_not_tiny {K : ℤ} {x : F192} (hx : Rng K x) (hK : K ≤ 2 ^ 40) : x ≠ negTiny := by
  rintro rfl
  rcases hx.exp with h | h
  · exact absurd ((fval_eq_zero hx.1).1 h) (by decide)
  · have : negTiny.exp = 0 := rfl
    omega

theorem rng_exp_hi {K : ℤ} {x : F192} (hx : Rng K x) (hK : K ≤ 2 ^ 40) : x.exp < 2 ^ 64 - 1 := by
  rcases hx.exp with h | h
  · rw [(fval_eq_zero hx.1).1 h]; decide
  · omega

theorem addP {K : ℤ} {x y : F192} (hx : Rng K x) (hy : Rng K y) (hK : K ≤ 2 ^ 40) (h0 : 0 ≤ fval x) (h1 : 0 ≤ fval y) :
    ∃ z, F192.add x y = pure z ∧ Rng (K + 1) z ∧ |fval z - (fval x + fval y)| ≤ 1 / 2 ^ 127 * (fval x + fval y) ∧ 0 ≤ fval z := by
  obtain ⟨z, z1, ⟨z2, z3, z4, -⟩, ⟨-, -, z5⟩⟩ := C41_add_same hx.1 hy.1 (mul_nonneg h0 h1) (rng_exp_hi hx hK) (rng_exp_hi hy hK)
    (rng_not_tiny hx hK) (rng_not_tiny hy hK)
  have hs : 0 ≤ fval x + fval y := by linarith
  have z0 := sign_nonneg' z3 hs
  rw [abs_of_nonneg hs] at z4 z5
  rw [abs_of_nonneg z0] at z4
  refine ⟨z, z1, ⟨z2, ?_⟩, z5, z0⟩
  have e1 : (2 : ℚ) ^ (-(K + 1)) = 2 ^ (-K) * (1 / 2) := by
    rw [show (1 / 2 : ℚ) = 2 ^ (-1 : ℤ) by norm_num, ← zpow_add₀ (by norm_num)]
    congr 1; ring
  have e2 : (2 : ℚ) ^ (K + 1) = 2 ^ K * 2 := zpow_add_one₀ (by norm_num) _
  have hp0 : (0 : ℚ) < 2 ^ (-K) := zpow_pos (by norm_num) _
  have hp1 : (0 : ℚ) < 2 ^ K := zpow_pos (by norm_num) _
  rw [e1, e2, abs_of_nonneg z0]
  have hx2 := hx.2
  have hy2 := hy.2
  rw [abs_of_nonneg h0] at hx2
  rw [abs_of_nonneg h1] at hy2
  have z6 := (abs_le.1 z5).1
  have hfin : ∀ t : ℚ, 2 ^ (-K) ≤ t → t ≤ 2 * 2 ^ K → t = fval x + fval y → 2 ^ (-K) * (1 / 2) ≤ fval z ∧ fval z ≤ 2 ^ K * 2 := by
    intro t a b c
    rw [← c] at z4 z6
    norm_num at z6
    constructor <;> linarith
  rcases hx2 with h | ⟨a, b⟩
  · rcases hy2 with h' | ⟨c, d⟩
    · left
      rw [h, h', add_zero] at z4
      exact le_antisymm z4 z0
    · right; exact hfin _ (by linarith) (by linarith) rfl
  · right
    rcases hy2 with h' | ⟨c, d⟩
    · exact hfin _ (by linarith) (by linarith) rfl
    · exact hfin _ (by linarith) (by linarith) rfl

/-! ### inverse sine -/

open Ratio (asinCoeff asinCoeff_succ asinSum_succ)

theorem asinCoeff_nonneg (n : ℕ) : 0 ≤ asinCoeff n := by rw [asinCoeff]; positivity

theorem asinSum_nonneg {v : ℚ} (hv : 0 ≤ v) (n : ℕ) : 0 ≤ asinSum n v := by
  rw [asinSum]; exact Finset.sum_nonneg fun j _ => by positivity

theorem asin_rel {A c q v m k d ε : ℚ} {a b : ℚ} (hA : 0 ≤ A) (hc : |c - A| ≤ ε * A) (hq : |q - v * v| ≤ 1 / 2 ^ 124 * (v * v))
    (hm : |m - c * q| ≤ 1 / 2 ^ 124 * |c * q|) (ha : 0 ≤ a) (hb : 0 < b) (hk : |k - m * a| ≤ 1 / 2 ^ 127 * |m * a|)
    (hd : |d - k / b| ≤ 1 / 2 ^ 127 * |k / b|) (_ : 0 ≤ ε) (h1 : ε ≤ 1 / 2) :
    |d - A * (v * v) * a / b| ≤ (ε + 1 / 2 ^ 121) * (A * (v * v) * a / b) := by
  have hvv := mul_self_nonneg v
  have s1 := rel_mul hA hvv hc hq
  have s2 := rel_trans (mul_nonneg hA hvv) (by norm_num) hm s1
  have s3 := rel_scale ha s2
  have hP : 0 ≤ A * (v * v) * a := mul_nonneg (mul_nonneg hA hvv) ha
  have s4 := rel_trans hP (by norm_num) hk s3
  have s5 := rel_divide hb s4
  have s6 := rel_trans (div_nonneg hP hb.le) (by norm_num) hd s5
  refine s6.trans (mul_le_mul_of_nonneg_right ?_ (div_nonneg hP hb.le))
  norm_num
  linarith

/-- the term of the series after `i` rounds -/
def asinTerm (v : ℚ) (i : ℕ) : ℚ := asinCoeff (i + 1) * v ^ (2 * i + 3)

theorem asinTerm_succ (v : ℚ) (i : ℕ) : asinTerm v (i + 1) =
    asinTerm v i * (v * v) * (((2 * i + 3) * (2 * i + 3) * (2 * i + 4) : ℤ) : ℚ) / (((i + 2) * (i + 2) * (2 * i + 5) * 4 : ℤ) : ℚ) := by
  rw [asinTerm, asinTerm, asinCoeff_succ (i + 1)]
  push_cast
  ring

theorem asinLoop_c {K : ℤ} {q : F192} {v : ℚ} (hv : 0 ≤ v) (rq : Rng K q) (hq : |fval q - v * v| ≤ 1 / 2 ^ 124 * (v * v)) (q0 : 0 ≤ fval q)
    (hK : 0 ≤ K) (hK' : K ≤ 2 ^ 36) :
    ∀ (n i : ℕ) (r c : F192) (L : ℤ), i + n = 15 → Rng L r → Rng L c → 0 ≤ fval r → 0 ≤ fval c → 0 ≤ L → L + n * (K + 100) ≤ 2 ^ 40 →
      |fval c - asinTerm v i| ≤ (i + 1 : ℕ) / 2 ^ 121 * asinTerm v i →
      |fval r - asinSum (i + 1) v| ≤ (i + 1 : ℕ) / 2 ^ 121 * asinSum (i + 1) v →
      Panics (asinLoop q n i r c) ∨ ∃ z, asinLoop q n i r c = pure z ∧ Rng (L + n * (K + 100)) z ∧ 0 ≤ fval z ∧
        |fval z - asinSum 16 v| ≤ 16 / 2 ^ 121 * asinSum 16 v
  | 0, i, r, c, L, hi, rr, rc, r0, c0, hL, hL', ec, er => by
    obtain rfl : i = 15 := by omega
    refine Or.inr ⟨r, rfl, rr.mono (by push_cast; omega), r0, ?_⟩
    simpa using er
  | n + 1, i, r, c, L, hi, rr, rc, r0, c0, hL, hL', ec, er => by
    have hmn : (0 : ℤ) ≤ n * (K + 100) := by positivity
    have hex : ((n + 1 : ℕ) : ℤ) * (K + 100) = n * (K + 100) + K + 100 := by push_cast; ring
    rw [hex] at hL'
    rw [hex, asinLoop]
    have hA : 0 ≤ asinTerm v i := mul_nonneg (asinCoeff_nonneg _) (by positivity)
    have hS : 0 ≤ asinSum (i + 1) v := asinSum_nonneg hv _
    have hε : ((i + 1 : ℕ) : ℚ) ≤ 15 := by exact_mod_cast (show i + 1 ≤ 15 by omega)
    have hε0 : (0 : ℚ) ≤ ((i + 1 : ℕ) : ℚ) := by positivity
    obtain ⟨s, s1, s2, s3, s4⟩ := addP rr rc (by omega) r0 c0
    obtain ⟨m, m1, m2, m3, m4⟩ := mulR2 rc rq (by omega) (by omega) (by omega)
    have m0 := m4 (mul_nonneg c0 q0)
    have hi' : i ≤ 14 := by omega
    have ha : (0 : ℤ) < (2 * i + 3) * (2 * i + 3) * (2 * i + 4) := by positivity
    have ha' : ((2 * i + 3) * (2 * i + 3) * (2 * i + 4) : ℤ) < 2 ^ 31 := by
      clear * - hi'
      interval_cases i <;> norm_num
    have hb : (0 : ℤ) < (i + 2) * (i + 2) * (2 * i + 5) * 4 := by positivity
    have hb' : ((i + 2) * (i + 2) * (2 * i + 5) * 4 : ℤ) < 2 ^ 31 := by
      clear * - hi'
      interval_cases i <;> norm_num
    rcases mulI m2 ha ha' (by omega) with ⟨p, hp⟩ | ⟨k, k1, k2, k3, k4⟩
    · left
      refine ⟨p, ?_⟩
      rw [s1, pure_bind, m1, pure_bind, hp]
      rfl
    have k0 := k4 m0
    obtain ⟨d, d1, d2, d3, -, d4⟩ := divR k2 hb hb' (by omega)
    have d0 := d4 k0
    rw [s1, pure_bind, m1, pure_bind, k1, pure_bind, d1, pure_bind]
    have ed := asin_rel hA ec hq m3 (by exact_mod_cast ha.le) (by exact_mod_cast hb) k3 d3 (by positivity) (by linarith)
    rw [← asinTerm_succ] at ed
    have key : ((i + 1 : ℕ) : ℚ) / 2 ^ 121 + 1 / 2 ^ 121 = ((i + 1 + 1 : ℕ) : ℚ) / 2 ^ 121 := by push_cast; ring
    rw [key] at ed
    have es : |fval s - asinSum (i + 1 + 1) v| ≤ ((i + 1 + 1 : ℕ) : ℚ) / 2 ^ 121 * asinSum (i + 1 + 1) v := by
      have hsum : asinSum (i + 1 + 1) v = asinSum (i + 1) v + asinTerm v i := by
        rw [asinSum_succ, asinTerm, show 2 * (i + 1) + 1 = 2 * i + 3 by ring]
      rw [hsum, ← key]
      have e1 : |fval r + fval c - (asinSum (i + 1) v + asinTerm v i)| ≤ ((i + 1 : ℕ) : ℚ) / 2 ^ 121 * (asinSum (i + 1) v + asinTerm v i) := by
        rw [add_sub_add_comm, mul_add]
        exact (abs_add_le _ _).trans (add_le_add er ec)
      have e2 := rel_trans (add_nonneg hS hA) (by norm_num) (γ := 1 / 2 ^ 127) (by rw [abs_of_nonneg (add_nonneg r0 c0)]; exact s3) e1
      refine e2.trans (mul_le_mul_of_nonneg_right ?_ (add_nonneg hS hA))
      clear * - hε hε0
      generalize ((i + 1 : ℕ) : ℚ) = t at *
      norm_num
      linarith
    rcases asinLoop_c hv rq hq q0 hK hK' n (i + 1) s d (L + K + 100) (by omega) (s2.mono (by omega)) (d2.mono (by omega)) s4 d0 (by omega)
      (by omega) ed es with h | ⟨z, z1, z2, z3, z4⟩
    · exact Or.inl h
    · exact Or.inr ⟨z, z1, z2.mono (by omega), z3, z4⟩

theorem asin_c {K : ℤ} {x : F192} (rx : Rng K x) (hK : 64 ≤ K) (hK' : K ≤ 2 ^ 26) (h1 : |fval x| ≤ 1) (h2 : fval x ≤ fval ONE_OVER_SQRT_2) :
    Panics (asin x) ∨ ∃ z, asin x = pure z ∧ Rng (40 * K + 2000) z ∧ |fval z - asinSum 16 (fval x)| ≤ 1 / 2 ^ 117 * |asinSum 16 (fval x)| ∧
      (0 ≤ fval x → 0 ≤ fval z) ∧ (fval x ≤ 0 → fval z ≤ 0) := by
  have ht := rng_not_tiny rx (by omega)
  obtain ⟨-, -, n1, n2, n3⟩ := C59_sign_partial rx.1 ht
  obtain ⟨r, hr⟩ : ∃ r, r = if is_neg x then neg x else x := ⟨_, rfl⟩
  have hv : fval r = |fval x| ∧ FValid r := by
    rw [hr]
    by_cases h : is_neg x = true
    · rw [if_pos h, n2, abs_of_neg (n3.1 h)]; exact ⟨rfl, n1⟩
    · rw [if_neg h, abs_of_nonneg (not_lt.1 fun hc => h (n3.2 hc))]; exact ⟨rfl, rx.1⟩
  have r0 : 0 ≤ fval r := by rw [hv.1]; exact abs_nonneg _
  have rr : Rng K r := ⟨hv.2, by rw [hv.1, _root_.abs_abs, abs_eq_zero]; exact rx.2⟩
  have g1 : ¬gt r ONE = true := by
    rw [(C39_ops rr.1 (show FValid ONE by decide)).2.1, hv.1, not_lt]
    refine h1.trans (le_of_eq ?_)
    have := fval_mk (s := false) (m := 170141183460469231731687303715884105728) (e := 281474976710656 - 127) ⟨by norm_num, by norm_num⟩ (nz_exp (by omega))
    rw [mg_coeff_sub (by omega), sgn_false, one_mul] at this
    exact (this.trans (by norm_num)).symm
  have g2 : ¬gt x ONE_OVER_SQRT_2 = true := by
    rw [(C39_ops rx.1 (show FValid ONE_OVER_SQRT_2 by decide)).2.1, not_lt]
    exact h2
  obtain ⟨q, q1, q2, q3, q4⟩ := mulR2 rr rr (by omega) (by omega) (by omega)
  have q0 := q4 (mul_self_nonneg _)
  obtain ⟨m, m1, m2, m3, m4⟩ := mulR2 q2 rr (by omega) (by omega) (by omega)
  have m0 := m4 (mul_nonneg q0 r0)
  obtain ⟨c, c1, c2, c3, -, c4⟩ := divR m2 (a := 6) (by norm_num) (by norm_num) (by omega)
  have c0 := c4 m0
  rw [abs_of_nonneg (mul_self_nonneg (fval r))] at q3
  have ec : |fval c - asinTerm (fval r) 0| ≤ ((0 + 1 : ℕ) : ℚ) / 2 ^ 121 * asinTerm (fval r) 0 := by
    have hT : asinTerm (fval r) 0 = fval r * fval r * fval r / 6 := by
      rw [asinTerm, show asinCoeff (0 + 1) = 1 / 6 by rw [asinCoeff]; norm_num [Nat.factorial]]; ring
    have hp : 0 ≤ fval r * fval r * fval r := by positivity
    have s1 := rel_mul (mul_self_nonneg (fval r)) r0 q3 (y := fval r) (β := 0) (by simp)
    have s2 := rel_trans hp (by norm_num) m3 s1
    have s3 := rel_divide (show (0 : ℚ) < 6 by norm_num) s2
    have c3' : |fval c - fval m / 6| ≤ 1 / 2 ^ 127 * |fval m / 6| := by exact_mod_cast c3
    have s4 := rel_trans (div_nonneg hp (by norm_num)) (by norm_num) c3' s3
    rw [hT]
    refine s4.trans (mul_le_mul_of_nonneg_right ?_ (div_nonneg hp (by norm_num)))
    norm_num
  have er : |fval r - asinSum (0 + 1) (fval r)| ≤ ((0 + 1 : ℕ) : ℚ) / 2 ^ 121 * asinSum (0 + 1) (fval r) := by
    have : asinSum (0 + 1) (fval r) = fval r := by simp [asinSum]
    rw [this, sub_self, _root_.abs_zero]; positivity
  have hneg : asinSum 16 (fval x) = if is_neg x then -asinSum 16 (fval r) else asinSum 16 (fval r) := by
    rw [hv.1]
    by_cases h : is_neg x = true
    · rw [if_pos h, abs_of_neg (n3.1 h), RealSeries.asinSum_neg, neg_neg]
    · rw [if_neg h, abs_of_nonneg (not_lt.1 fun hc => h (n3.2 hc))]
  rcases asinLoop_c r0 q2 q3 q0 (by omega) (by omega) 15 0 r c (3 * K + 200) (by norm_num) (rr.mono (by omega)) (c2.mono (by omega)) r0 c0 (by omega)
    (by push_cast; omega) ec er with ⟨p, hp⟩ | ⟨z, z1, z2, z3, z4⟩
  · left
    refine ⟨p, ?_⟩
    rw [asin]
    rw [← hr, if_neg g1, if_neg g2, q1, pure_bind, m1, pure_bind, c1, pure_bind, hp]
    rfl
  · right
    have rz : Rng (40 * K + 2000) z := z2.mono (by push_cast; omega)
    obtain ⟨-, -, w1, w2, -⟩ := C59_sign_partial rz.1 (rng_not_tiny rz (by omega))
    have hS := asinSum_nonneg r0 16
    refine ⟨if is_neg x then neg z else z, ?_, ?_, ?_, ?_, ?_⟩
    · rw [asin]
      rw [← hr, if_neg g1, if_neg g2, q1, pure_bind, m1, pure_bind, c1, pure_bind, z1, pure_bind]
    · by_cases h : is_neg x = true
      · rw [if_pos h]; exact ⟨w1, by rw [w2, abs_neg, neg_eq_zero]; exact rz.2⟩
      · rw [if_neg h]; exact rz
    · rw [hneg]
      by_cases h : is_neg x = true
      · rw [if_pos h, if_pos h, w2, ← neg_sub', abs_neg, abs_neg, abs_of_nonneg hS]
        refine z4.trans (le_of_eq ?_); norm_num
      · rw [if_neg h, if_neg h, abs_of_nonneg hS]
        refine z4.trans (le_of_eq ?_); norm_num
    · intro hx
      have h : ¬is_neg x = true := fun hc => absurd (n3.1 hc) (not_lt.2 hx)
      rw [if_neg h]; exact z3
    · intro hx
      rcases hx.lt_or_eq with hx | hx
      · rw [if_pos (n3.2 hx), w2]; linarith
      · have h : ¬is_neg x = true := fun hc => absurd (n3.1 hc) (by rw [hx]; exact lt_irrefl _)
        rw [if_neg h]
        have : asinSum 16 (fval r) = 0 := by
          rw [hv.1, hx, _root_.abs_zero, asinSum]
          exact Finset.sum_eq_zero fun j _ => by rw [zero_pow (by omega), mul_zero]
        rw [this, sub_zero, mul_zero] at z4
        exact (abs_eq_zero.1 (le_antisymm z4 (abs_nonneg _))).le

/-! ### a half turn minus a number -/

theorem half_sub {K : ℤ} {a : F192} (ra : Rng K a) (hK : 64 ≤ K) (hK' : K ≤ 4294967000) (h1 : fval a ≤ 9 / 10) (h2 : -3 ≤ fval a) :
    ∃ z, F192.sub PI_OVER_2 a = pure z ∧ FValid z ∧ |fval z - (fval PI / 2 - fval a)| ≤ 1 / 2 ^ 124 := by
  have plo := pi_lo
  have phi := pi_hi
  have p2 := pi_val.2.1
  have rp : Rng 64 PI_OVER_2 := rng_const (by decide) (by rw [p2]; linarith) (by rw [p2]; linarith)
  rw [← p2]
  have fin : ∀ z, |fval z - (fval PI_OVER_2 - fval a)| ≤ 1 / 2 ^ 127 * |fval PI_OVER_2 - fval a| → |fval z - (fval PI_OVER_2 - fval a)| ≤ 1 / 2 ^ 124 := by
    intro z h
    refine h.trans ?_
    have : |fval PI_OVER_2 - fval a| ≤ 8 := by rw [p2, abs_le]; constructor <;> linarith
    refine (mul_le_mul_of_nonneg_left this (by norm_num)).trans (le_of_eq (by norm_num))
  rcases le_or_gt (fval a) 0 with h | h
  · obtain ⟨z, z1, z2, -, z3⟩ := C41_sub_partial rp.1 ra.1 (rp.inRange (by norm_num)) (ra.inRange hK')
      (Or.inl (mul_nonpos_of_nonneg_of_nonpos (by rw [p2]; linarith) h))
    exact ⟨z, z1, z2, fin z z3⟩
  rcases le_or_gt (fval a) (1 / 2 + 1 / 20) with h' | h'
  · obtain ⟨z, z1, z2, z3⟩ := subR (rp.mono hK) ra hK' (noCarry_between 0 (by rw [p2, zpow_zero]; exact le_trans (by linarith) (le_abs_self _))
      (by
        rw [p2, zpow_zero, one_mul, abs_of_nonneg (by linarith)]
        refine le_trans (show fval PI / 2 - fval a ≤ 19 / 10 by linarith) (by norm_num)))
    exact ⟨z, z1, z2, fin z z3⟩
  · have ra' : Rng 64 a := rng_const ra.1 (by linarith) (by linarith)
    rcases lt_or_ge (fval PI_OVER_2 - fval a) 1 with hc | hc
    · obtain ⟨z, z1, z2, z3⟩ := sub_near (rp.mono (by norm_num)) (ra'.mono (by norm_num)) (k := 128) (by norm_num)
        (by rw [p2]; norm_num; linarith) (by norm_num; linarith) (by
          rw [abs_of_nonneg (by rw [p2]; linarith)]
          norm_num
          exact hc)
      refine ⟨z, z1, z2.1, ?_⟩
      rw [z3, sub_self, _root_.abs_zero]
      norm_num
    · obtain ⟨z, z1, z2, z3⟩ := subR (rp.mono hK) ra hK' (noCarry_between 0 (by rw [zpow_zero]; exact hc.trans (le_abs_self _))
        (by
          rw [p2, zpow_zero, one_mul, abs_of_nonneg (by linarith)]
          refine le_trans (show fval PI / 2 - fval a ≤ 19 / 10 by linarith) (by norm_num)))
      exact ⟨z, z1, z2, fin z z3⟩

/-! ### inverse tangent -/

theorem atanSum_succ' (n : ℕ) (v : ℚ) : atanSum (n + 1) v = atanSum n v + (-1) ^ n * v ^ (2 * n + 1) / (2 * n + 1) := by
  rw [atanSum, atanSum, Finset.sum_range_succ]

theorem pow_odd_le {v : ℚ} (h0 : 0 ≤ v) (hv : v * v ≤ 51 / 100) (n : ℕ) : v ^ (2 * n + 1) ≤ v * (51 / 100) ^ n := by
  rw [pow_succ, pow_mul, mul_comm, pow_two]
  exact mul_le_mul_of_nonneg_left (pow_le_pow_left₀ (mul_self_nonneg v) hv n) h0

theorem atanSum_near {v : ℚ} (h0 : 0 ≤ v) (hv : v * v ≤ 51 / 100) : ∀ n : ℕ, |atanSum (n + 1) v - v| ≤ 2 / 5 * v * (1 - (51 / 100) ^ n)
  | 0 => by simp [atanSum]
  | n + 1 => by
    have ih := atanSum_near h0 hv n
    rw [atanSum_succ']
    have h1 := pow_odd_le h0 hv (n + 1)
    have h2 : |(-1) ^ (n + 1) * v ^ (2 * (n + 1) + 1) / (2 * ((n + 1 : ℕ) : ℚ) + 1)| ≤ v * (51 / 100) ^ (n + 1) / 3 := by
      rw [abs_div, abs_mul, abs_pow, abs_neg, abs_one, one_pow, one_mul, abs_of_nonneg (show 0 ≤ v ^ (2 * (n + 1) + 1) by positivity),
        abs_of_nonneg (by positivity)]
      refine div_le_div₀ (by positivity) h1 (by norm_num) ?_
      push_cast
      have : (0 : ℚ) ≤ n := by positivity
      linarith
    rw [add_sub_right_comm]
    refine (abs_add_le _ _).trans ((add_le_add ih h2).trans ?_)
    have hp : 0 ≤ v * (51 / 100) ^ n := by positivity
    rw [pow_succ]
    nlinarith

theorem atanSum_lo {v : ℚ} (h0 : 0 ≤ v) (hv : v * v ≤ 51 / 100) (n : ℕ) : 3 / 5 * v ≤ atanSum (n + 1) v ∧ atanSum (n + 1) v ≤ 7 / 5 * v := by
  have h := abs_le.1 (atanSum_near h0 hv n)
  have : 0 ≤ 2 / 5 * v * (51 / 100) ^ n := by positivity
  constructor <;> nlinarith

/-- No partial sum of even length up to 16 lies (relatively) within `2^-90` of a power of two. -/
def AtanGap (v : ℚ) : Prop := ∀ n ≤ 8, ∀ k : ℤ, 2 ^ k * (1 / 2 ^ 90) ≤ |atanSum (2 * n) v - 2 ^ k|

theorem noCarry_near {S w : ℚ} (hS : ∀ k : ℤ, 2 ^ k * (1 / 2 ^ 90) ≤ |S - 2 ^ k|) (h0 : 0 ≤ S) (h : |w - S| ≤ 1 / 2 ^ 95 * S) : NoCarry w := by
  rcases h0.eq_or_lt with h0 | h0
  · rw [← h0, mul_zero] at h
    have : w = 0 := by
      have := abs_eq_zero.1 (le_antisymm h (abs_nonneg _))
      linarith
    rw [this]
    intro k
    left
    rw [_root_.abs_zero]
    have : (0 : ℚ) < 2 ^ k := zpow_pos (by norm_num) _
    norm_num
    exact this
  obtain ⟨j, j1, j2⟩ := exists_mem_Ico_zpow h0 (show (1 : ℚ) < 2 by norm_num)
  have hp : (0 : ℚ) < 2 ^ j := zpow_pos (by norm_num) _
  rw [zpow_add_one₀ (by norm_num)] at j2
  have g1 := hS j
  have g2 := hS (j + 1)
  rw [zpow_add_one₀ (by norm_num)] at g2
  rw [abs_of_nonneg (by linarith)] at g1
  rw [abs_of_neg (by linarith)] at g2
  obtain ⟨a, b⟩ := abs_le.1 h
  have lo : 2 ^ j ≤ w := by
    generalize (2 : ℚ) ^ j = u at *
    norm_num at *
    linarith
  refine noCarry_between j (lo.trans (le_abs_self _)) ?_
  rw [abs_of_nonneg (hp.le.trans lo)]
  generalize (2 : ℚ) ^ j = u at *
  norm_num at *
  linarith

theorem rng_of_near {K : ℤ} {v S : ℚ} {z : F192} (hv : v = 0 ∨ 2 ^ (-K) ≤ v ∧ v ≤ 2 ^ K) (hz : FValid z) (h1 : 3 / 5 * v ≤ S) (h2 : S ≤ 7 / 5 * v)
    (h : |fval z - S| ≤ 1 / 10 * v) : Rng (K + 1) z ∧ 0 ≤ fval z := by
  obtain ⟨a, b⟩ := abs_le.1 h
  rcases hv with rfl | ⟨c, d⟩
  · have : fval z = 0 := by linarith
    exact ⟨⟨hz, Or.inl this⟩, this.ge⟩
  have hp : (0 : ℚ) < 2 ^ (-K) := zpow_pos (by norm_num) _
  have h0 : 0 ≤ fval z := by linarith
  refine ⟨⟨hz, Or.inr ?_⟩, h0⟩
  rw [abs_of_nonneg h0, zpow_add_one₀ (by norm_num), show -(K + 1) = -K + -1 by ring, zpow_add₀ (by norm_num)]
  generalize (2 : ℚ) ^ (-K) = u at *
  generalize (2 : ℚ) ^ K = u' at *
  norm_num
  constructor <;> linarith

theorem atan_term {c P t v : ℚ} {i : ℕ} (hc : |c - P| ≤ i / 2 ^ 120 * P) (h0 : 0 ≤ P) (h1 : P ≤ v) (hi : 1 ≤ i) (hi' : i ≤ 16)
    (ht : |t - c / (2 * i + 1)| ≤ 1 / 2 ^ 127 * |c / (2 * i + 1)|) : |t - P / (2 * i + 1)| ≤ v / 2 ^ 120 := by
  have hi1 : (1 : ℚ) ≤ i := by exact_mod_cast hi
  have hi2 : (i : ℚ) ≤ 16 := by exact_mod_cast hi'
  have hb : (0 : ℚ) < 2 * i + 1 := by linarith
  refine (rel_trans (div_nonneg h0 hb.le) (by norm_num) ht (rel_divide hb hc)).trans ?_
  rw [← mul_div_assoc, div_le_iff₀ hb]
  have : (1 / 2 ^ 127 + (i : ℚ) / 2 ^ 120 + 1 / 2 ^ 127 * (i / 2 ^ 120)) ≤ (2 * i + 1) / 2 ^ 120 := by
    generalize (i : ℚ) = w at *
    norm_num
    linarith
  refine (mul_le_mul this h1 h0 (by positivity)).trans (le_of_eq (by ring))

theorem atan_pow {c q v m : ℚ} {i : ℕ} (hv : 0 ≤ v) (hc : |c - v ^ (2 * i + 1)| ≤ i / 2 ^ 120 * v ^ (2 * i + 1)) (hq : |q - v * v| ≤ 1 / 2 ^ 121 * (v * v))
    (hm : |m - c * q| ≤ 1 / 2 ^ 124 * |c * q|) (hi : i ≤ 16) : |m - v ^ (2 * (i + 1) + 1)| ≤ (i + 1 : ℕ) / 2 ^ 120 * v ^ (2 * (i + 1) + 1) := by
  have hi2 : (i : ℚ) ≤ 16 := by exact_mod_cast hi
  have hi0 : (0 : ℚ) ≤ i := by positivity
  have h0 : 0 ≤ v ^ (2 * i + 1) := by positivity
  have := rel_trans (mul_nonneg h0 (mul_self_nonneg v)) (by norm_num) hm (rel_mul h0 (mul_self_nonneg v) hc hq)
  rw [show v ^ (2 * (i + 1) + 1) = v ^ (2 * i + 1) * (v * v) by ring]
  refine this.trans (mul_le_mul_of_nonneg_right ?_ (mul_nonneg h0 (mul_self_nonneg v)))
  push_cast
  generalize (i : ℚ) = w at *
  norm_num
  linarith

theorem atan_sub {K L : ℤ} {v : ℚ} {r t : F192} {i : ℕ} (hv : v = 0 ∨ 2 ^ (-K) ≤ v ∧ v ≤ 2 ^ K) (h0 : 0 ≤ v) (hv' : v * v ≤ 51 / 100) (rr : Rng L r) (rt : Rng L t)
    (hL : L ≤ 4294967000) (hg : AtanGap v) (hi : i ≤ 15) (ho : Odd i) (er : |fval r - atanSum i v| ≤ i * v / 2 ^ 119)
    (et : |fval t - v ^ (2 * i + 1) / (2 * i + 1)| ≤ v / 2 ^ 120) :
    ∃ z, F192.sub r t = pure z ∧ Rng (K + 1) z ∧ 0 ≤ fval z ∧ |fval z - atanSum (i + 1) v| ≤ (i + 1 : ℕ) * v / 2 ^ 119 := by
  have hi2 : (i : ℚ) ≤ 15 := by exact_mod_cast hi
  have hs : atanSum (i + 1) v = atanSum i v - v ^ (2 * i + 1) / (2 * i + 1) := by
    rw [atanSum_succ', ho.neg_one_pow]; ring
  obtain ⟨lo, hi'⟩ := atanSum_lo h0 hv' i
  have e1 : |fval r - fval t - atanSum (i + 1) v| ≤ i * v / 2 ^ 119 + v / 2 ^ 120 := by
    rw [hs, sub_sub_sub_comm]
    exact (abs_sub _ _).trans (add_le_add er et)
  have hiv : (i : ℚ) * v ≤ 15 * v := mul_le_mul_of_nonneg_right hi2 h0
  obtain ⟨n, hn⟩ : ∃ n, i + 1 = 2 * n := by
    obtain ⟨k, hk⟩ := ho
    exact ⟨k + 1, by omega⟩
  have e2 : |fval r - fval t - atanSum (i + 1) v| ≤ 1 / 2 ^ 95 * atanSum (i + 1) v := by
    refine e1.trans ?_
    generalize atanSum (i + 1) v = S at *
    generalize (i : ℚ) * v = w at *
    norm_num at *
    linarith
  obtain ⟨z, z1, z2, z3⟩ := subR rr rt hL (noCarry_near (hn ▸ hg n (by omega)) (by linarith) e2)
  have e3 : |fval r - fval t| ≤ 2 * v := by
    have := abs_le.1 e2
    rw [abs_le]
    generalize atanSum (i + 1) v = S at *
    norm_num at this
    constructor <;> linarith
  have e4 : |fval z - atanSum (i + 1) v| ≤ (i + 1 : ℕ) * v / 2 ^ 119 := by
    refine (abs_sub_le _ (fval r - fval t) _).trans ((add_le_add (z3.trans (mul_le_mul_of_nonneg_left e3 (by norm_num))) e1).trans ?_)
    push_cast
    rw [add_mul]
    generalize (i : ℚ) * v = w at *
    norm_num at *
    linarith
  have e5 : |fval z - atanSum (i + 1) v| ≤ 1 / 10 * v := by
    refine e4.trans ?_
    push_cast
    rw [add_mul]
    generalize (i : ℚ) * v = w at *
    norm_num at *
    linarith
  obtain ⟨f1, f2⟩ := rng_of_near hv z2 lo hi' e5
  exact ⟨z, z1, f1, f2, e4⟩

theorem atan_add {K L : ℤ} {v : ℚ} {r t : F192} {i : ℕ} (hv : v = 0 ∨ 2 ^ (-K) ≤ v ∧ v ≤ 2 ^ K) (h0 : 0 ≤ v) (hv' : v * v ≤ 51 / 100) (rr : Rng L r) (rt : Rng L t)
    (hL : L ≤ 4294967000) (r0 : 0 ≤ fval r) (t0 : 0 ≤ fval t) (hi : i ≤ 15) (ho : Even i) (er : |fval r - atanSum i v| ≤ i * v / 2 ^ 119)
    (et : |fval t - v ^ (2 * i + 1) / (2 * i + 1)| ≤ v / 2 ^ 120) :
    ∃ z, F192.add r t = pure z ∧ Rng (K + 1) z ∧ 0 ≤ fval z ∧ |fval z - atanSum (i + 1) v| ≤ (i + 1 : ℕ) * v / 2 ^ 119 := by
  have hi2 : (i : ℚ) ≤ 15 := by exact_mod_cast hi
  have hs : atanSum (i + 1) v = atanSum i v + v ^ (2 * i + 1) / (2 * i + 1) := by
    rw [atanSum_succ', ho.neg_one_pow]; ring
  obtain ⟨lo, hi'⟩ := atanSum_lo h0 hv' i
  have e1 : |fval r + fval t - atanSum (i + 1) v| ≤ i * v / 2 ^ 119 + v / 2 ^ 120 := by
    rw [hs, add_sub_add_comm]
    exact (abs_add_le _ _).trans (add_le_add er et)
  have hiv : (i : ℚ) * v ≤ 15 * v := mul_le_mul_of_nonneg_right hi2 h0
  obtain ⟨z, z1, z2, z3, z0⟩ := addP rr rt (by omega) r0 t0
  have e3 : fval r + fval t ≤ 2 * v := by
    have := abs_le.1 e1
    generalize atanSum (i + 1) v = S at *
    generalize (i : ℚ) * v = w at *
    norm_num at this
    linarith
  have e4 : |fval z - atanSum (i + 1) v| ≤ (i + 1 : ℕ) * v / 2 ^ 119 := by
    refine (abs_sub_le _ (fval r + fval t) _).trans ((add_le_add (z3.trans (mul_le_mul_of_nonneg_left e3 (by norm_num))) e1).trans ?_)
    push_cast
    rw [add_mul]
    generalize (i : ℚ) * v = w at *
    norm_num at *
    linarith
  have e5 : |fval z - atanSum (i + 1) v| ≤ 1 / 10 * v := by
    refine e4.trans ?_
    push_cast
    rw [add_mul]
    generalize (i : ℚ) * v = w at *
    norm_num at *
    linarith
  obtain ⟨f1, f2⟩ := rng_of_near hv z2.1 lo hi' e5
  exact ⟨z, z1, f1, f2, e4⟩

theorem atan_pow_le {v : ℚ} (h0 : 0 ≤ v) (hv : v * v ≤ 51 / 100) (i : ℕ) : v ^ (2 * i + 1) ≤ v :=
  (pow_odd_le h0 hv i).trans (mul_le_of_le_one_right h0 (pow_le_one₀ (by norm_num) (by norm_num)))

theorem atanLoop_c {K : ℤ} {q : F192} {v : ℚ} (hv : v = 0 ∨ 2 ^ (-K) ≤ v ∧ v ≤ 2 ^ K) (h0 : 0 ≤ v) (hv' : v * v ≤ 51 / 100) (hg : AtanGap v)
    (rq : Rng (2 * K + 3) q) (q0 : 0 ≤ fval q) (hq : |fval q - v * v| ≤ 1 / 2 ^ 121 * (v * v)) (hK : 64 ≤ K) (hK' : K ≤ 2 ^ 26) :
    ∀ (n i k : ℕ) (r c : F192) (L : ℤ), i + 2 * n = 15 → k = 2 * i + 1 → Odd i → Rng (K + 1) r → Rng L c → 0 ≤ fval r → 0 ≤ fval c →
      K ≤ L → L + n * (4 * K + 8) ≤ 2 ^ 31 →
      |fval r - atanSum i v| ≤ i * v / 2 ^ 119 → |fval c - v ^ (2 * i + 1)| ≤ i / 2 ^ 120 * v ^ (2 * i + 1) →
      ∃ z, atanLoop q n k r c = pure z ∧ Rng (K + 1) z ∧ 0 ≤ fval z ∧ |fval z - atanSum 16 v| ≤ v / 2 ^ 115
  | 0, i, k, r, c, L, hi, hk, ho, rr, rc, r0, c0, hL, hL', er, ec => by
    obtain rfl : i = 15 := by omega
    subst hk
    obtain ⟨t, t1, t2, t3, -, t0⟩ := divR rc (a := ((2 * 15 + 1 : ℕ) : ℤ)) (by norm_num) (by norm_num) (by omega)
    have et := atan_term ec (pow_nonneg h0 _) (atan_pow_le h0 hv' 15) (by norm_num) (by norm_num) (t := fval t) (by
      rw [show (((2 * 15 + 1 : ℕ) : ℤ) : ℚ) = 2 * ((15 : ℕ) : ℚ) + 1 by norm_num] at t3
      exact t3)
    obtain ⟨z, z1, z2, z3, z4⟩ := atan_sub hv h0 hv' (rr.mono (show K + 1 ≤ L + 32 by omega)) t2 (by omega) hg (by norm_num) ho er et
    refine ⟨z, ?_, z2, z3, z4.trans (le_of_eq ?_)⟩
    · rw [atanLoop, t1, pure_bind, z1]
    · push_cast; ring
  | n + 1, i, k, r, c, L, hi, hk, ho, rr, rc, r0, c0, hL, hL', er, ec => by
    subst hk
    have hmn : (0 : ℤ) ≤ n * (4 * K + 8) := by positivity
    have hex : ((n + 1 : ℕ) : ℤ) * (4 * K + 8) = n * (4 * K + 8) + (4 * K + 8) := by push_cast; ring
    rw [hex] at hL'
    have hi1 : 1 ≤ i := ho.pos
    obtain ⟨t, t1, t2, t3, -, t0⟩ := divR rc (a := ((2 * i + 1 : ℕ) : ℤ)) (by omega) (by omega) (by omega)
    have et := atan_term ec (pow_nonneg h0 _) (atan_pow_le h0 hv' i) hi1 (by omega) (t := fval t) (by
      have := t3
      push_cast at this ⊢
      exact this)
    obtain ⟨s, s1, s2, s3, s4⟩ := atan_sub hv h0 hv' (rr.mono (show K + 1 ≤ L + 32 by omega)) t2 (by omega) hg (by omega) ho er et
    obtain ⟨m, m1, m2, m3, m4⟩ := mulR2 rc rq (by omega) (by omega) (by omega)
    have m0 := m4 (mul_nonneg c0 q0)
    have em := atan_pow h0 ec hq m3 (by omega)
    obtain ⟨u, u1, u2, u3, -, u4⟩ := divR m2 (a := ((2 * i + 1 : ℕ) : ℤ) + 2) (by omega) (by omega) (by omega)
    have eu := atan_term em (pow_nonneg h0 _) (atan_pow_le h0 hv' (i + 1)) (by omega) (by omega) (t := fval u) (by
      have e : ((((2 * i + 1 : ℕ) : ℤ) + 2 : ℤ) : ℚ) = 2 * ((i + 1 : ℕ) : ℚ) + 1 := by push_cast; ring
      rw [e] at u3
      exact u3)
    obtain ⟨w, w1, w2, w3, w4⟩ := atan_add hv h0 hv' (s2.mono (show K + 1 ≤ L + (2 * K + 3) + 1 + 32 by omega)) u2 (by omega) s3 (u4 m0) (by omega)
      ho.add_one s4 eu
    obtain ⟨p, p1, p2, p3, p4⟩ := mulR2 m2 rq (by omega) (by omega) (by omega)
    have p0 := p4 (mul_nonneg m0 q0)
    have ep := atan_pow h0 em hq p3 (by omega)
    obtain ⟨z, z1, zz⟩ := atanLoop_c hv h0 hv' hg rq q0 hq hK hK' n (i + 2) (2 * i + 1 + 4) w p (L + (4 * K + 8)) (by omega) (by ring)
      (by exact ho.add_even (by decide)) w2 (p2.mono (by omega)) w3 p0 (by omega) (by omega) w4 ep
    refine ⟨z, ?_, zz⟩
    rw [atanLoop, t1, pure_bind, s1, pure_bind, m1, pure_bind, u1, pure_bind, w1, pure_bind, p1, pure_bind, z1]

/-- The number need not be exactly `v`. -/
theorem atanUnit_c {K : ℤ} {r : F192} {v : ℚ} (hv : v = 0 ∨ 2 ^ (-K) ≤ v ∧ v ≤ 2 ^ K) (h0 : 0 ≤ v) (hg : AtanGap v) (r1 : FValid r) (r0 : 0 ≤ fval r)
    (er : |fval r - v| ≤ 1 / 2 ^ 123 * v) (hr : fval r ≤ fval ONE_OVER_SQRT_2) (hK : 64 ≤ K) (hK' : K ≤ 2 ^ 26) :
    ∃ z, atanUnit r = pure z ∧ Rng (K + 1) z ∧ 0 ≤ fval z ∧ |fval z - atanSum 16 v| ≤ v / 2 ^ 115 := by
  have hhi := rsqrt_hi
  have hv1 : v ≤ 7071068 / 10000000 := by
    have := (abs_le.1 er).1
    norm_num at this
    linarith
  have hv' : v * v ≤ 51 / 100 := by nlinarith
  have er' : |fval r - v| ≤ 1 / 10 * v := er.trans (mul_le_mul_of_nonneg_right (by norm_num) h0)
  have rr := (rng_of_near hv r1 (S := v) (by linarith) (by linarith) er').1
  have g : ¬gt r ONE_OVER_SQRT_2 = true := by
    rw [(C39_ops r1 (show FValid ONE_OVER_SQRT_2 by decide)).2.1, not_lt]
    exact hr
  obtain ⟨q, q1, q2, q3, q4⟩ := mulR2 rr rr (by omega) (by omega) (by omega)
  have q0 := q4 (mul_self_nonneg _)
  obtain ⟨c, c1, c2, c3, c4⟩ := mulR2 q2 rr (by omega) (by omega) (by omega)
  have c0 := c4 (mul_nonneg q0 r0)
  have eq : |fval q - v * v| ≤ 1 / 2 ^ 121 * (v * v) := by
    refine (rel_trans (mul_self_nonneg v) (by norm_num) q3 (rel_mul h0 h0 er er)).trans (mul_le_mul_of_nonneg_right ?_ (mul_self_nonneg v))
    norm_num
  have ec : |fval c - v ^ (2 * 1 + 1)| ≤ ((1 : ℕ) : ℚ) / 2 ^ 120 * v ^ (2 * 1 + 1) := by
    have h3 : 0 ≤ v * v * v := by positivity
    rw [show v ^ (2 * 1 + 1) = v * v * v by ring]
    refine (rel_trans h3 (by norm_num) c3 (rel_mul (mul_self_nonneg v) h0 eq er)).trans (mul_le_mul_of_nonneg_right ?_ h3)
    norm_num
  have es : |fval r - atanSum 1 v| ≤ ((1 : ℕ) : ℚ) * v / 2 ^ 119 := by
    rw [show atanSum 1 v = v by simp [atanSum]]
    refine er.trans ?_
    norm_num
    linarith
  obtain ⟨z, z1, zz⟩ := atanLoop_c hv h0 hv' hg (q2.mono (by omega)) q0 eq hK hK' 7 1 3 r c (3 * K + 100) (by norm_num) (by norm_num) (by decide) rr
    (c2.mono (by omega)) r0 c0 (by omega) (by push_cast; omega) es ec
  refine ⟨z, ?_, zz⟩
  rw [atanUnit, if_neg g, q1, pure_bind, c1, pure_bind, z1]

end F192
end Hmath
