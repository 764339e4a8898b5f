import Verif.Model.Fp192Funcs
import Verif.Proofs.Fp192Div

/-!
# 192-bit floating point numbers: square root
-/

namespace Hmath
namespace F192

/-! ### the integer square root -/

theorem isqrtStep_c {n x : Nat} (hn : n < B128) (hx : 2 ^ 63 ≤ x) (hx' : x < 2 ^ 65) :
    ∃ y, isqrtStep n x = pure y ∧ n < (y + 1) ^ 2 ∧ 2 * x * y ≤ x ^ 2 + n := by
  have hx0 : 0 < x := by omega
  have hq : n / x ≤ 2 ^ 65 := by
    have : n / x ≤ n / 2 ^ 63 := Nat.div_le_div_left hx (by norm_num)
    refine le_trans this ?_
    omega
  refine ⟨(x + n / x) / 2, ?_, ?_, ?_⟩
  · rw [isqrtStep, uDiv_eq (by omega), pure_bind, u128Add, uAdd_eq (by omega), pure_bind]
  · have h1 : n < x * (n / x + 1) := by
      have := Nat.div_add_mod n x
      have := Nat.mod_lt n hx0
      rw [mul_add, mul_one]; omega
    have h2 : x + (n / x + 1) ≤ 2 * ((x + n / x) / 2 + 1) := by omega
    generalize (x + n / x) / 2 + 1 = y at *
    generalize n / x + 1 = q at *
    have h3 : (x + q) ^ 2 ≤ (2 * y) ^ 2 := Nat.pow_le_pow_left h2 2
    have h4 : 4 * (x * q) ≤ (x + q) ^ 2 := by
      zify
      nlinarith [sq_nonneg ((x : Int) - q)]
    nlinarith
  · have h1 : x * (n / x) ≤ n := Nat.mul_div_le n x
    have h2 : 2 * ((x + n / x) / 2) ≤ x + n / x := by omega
    generalize (x + n / x) / 2 = y at *
    generalize n / x = q at *
    nlinarith

/-- `x²` is between `n(1-2^-60)` and `n(1+d)` -/
def SqNear (n x : Nat) (d : ℚ) : Prop := (n : ℚ) * (1 - 1 / 2 ^ 60) ≤ (x : ℚ) ^ 2 ∧ (x : ℚ) ^ 2 ≤ n * (1 + d)

/-- `(X + N)² ≤ 4XN(1 + d')` holds between two points where it holds -/
theorem conv {X N c d d' : ℚ} (hN : 0 < N) (a1 : N * (1 - c) ≤ X) (a2 : X ≤ N * (1 + d)) (hd : d ^ 2 ≤ 4 * (1 + d) * d')
    (hc : c ^ 2 ≤ 4 * (1 - c) * d') (hdc : 0 < d + c) : (X + N) ^ 2 ≤ 4 * X * (N * (1 + d')) := by
  have hD : 0 < N * (d + c) := mul_pos hN hdc
  have l1 : 0 ≤ X - N * (1 - c) := by linarith
  have l2 : 0 ≤ N * (1 + d) - X := by linarith
  have k1 : 0 ≤ N ^ 2 * (4 * (1 + d) * d' - d ^ 2) := mul_nonneg (by positivity) (by linarith)
  have k2 : 0 ≤ N ^ 2 * (4 * (1 - c) * d' - c ^ 2) := mul_nonneg (by positivity) (by linarith)
  have key : N * (d + c) * (4 * X * (N * (1 + d')) - (X + N) ^ 2) =
      N * (d + c) * ((X - N * (1 - c)) * (N * (1 + d) - X)) + N ^ 2 * (4 * (1 - c) * d' - c ^ 2) * (N * (1 + d) - X) +
      N ^ 2 * (4 * (1 + d) * d' - d ^ 2) * (X - N * (1 - c)) := by ring
  have : 0 ≤ N * (d + c) * (4 * X * (N * (1 + d')) - (X + N) ^ 2) := by
    rw [key]; positivity
  have := nonneg_of_mul_nonneg_right this hD
  linarith

theorem sq_step {n x y : Nat} (hn : S127 ≤ n) (hx0 : 0 < x) {c d d' : ℚ} (h : (n : ℚ) * (1 - c) ≤ (x : ℚ) ^ 2 ∧ (x : ℚ) ^ 2 ≤ n * (1 + d))
    (h1 : n < (y + 1) ^ 2) (h2 : 2 * x * y ≤ x ^ 2 + n) (hd : d ^ 2 ≤ 4 * (1 + d) * d') (hc : c ^ 2 ≤ 4 * (1 - c) * d') (hdc : 0 < d + c) : SqNear n y d' := by
  have hn' : (170141183460469231731687303715884105728 : ℚ) ≤ n := by exact_mod_cast hn
  have hx : (0 : ℚ) < x := by exact_mod_cast hx0
  constructor
  · have h1' : (n : ℚ) < ((y : ℚ) + 1) ^ 2 := by exact_mod_cast h1
    by_contra hc
    rw [not_le] at hc
    -- 2y + 1 is large, but then y² is large
    have h3 : (n : ℚ) / 2 ^ 60 < 2 * y + 1 := by nlinarith
    have h4 : (2 : ℚ) ^ 67 ≤ n / 2 ^ 60 := by rw [le_div_iff₀ (by norm_num)]; norm_num; linarith
    have h5 : (n : ℚ) / 2 ^ 61 < y + 1 := by
      have : (n : ℚ) / 2 ^ 61 = n / 2 ^ 60 / 2 := by ring
      rw [this]; linarith
    have h6 : ((n : ℚ) / 2 ^ 62) ≤ y := by
      have e1 : (n : ℚ) / 2 ^ 61 = n / 2 ^ 60 / 2 := by ring
      have e2 : (n : ℚ) / 2 ^ 62 = n / 2 ^ 60 / 4 := by ring
      rw [e1] at h5; rw [e2]; linarith
    have h7 : ((n : ℚ) / 2 ^ 62) ^ 2 ≤ (y : ℚ) ^ 2 := pow_le_pow_left₀ (by positivity) h6 2
    have h8 : (n : ℚ) ≤ (n / 2 ^ 62) ^ 2 := by
      rw [div_pow, le_div_iff₀ (by norm_num), sq (n : ℚ)]
      refine mul_le_mul_of_nonneg_left ?_ (by positivity : (0 : ℚ) ≤ n)
      refine le_trans ?_ hn'
      norm_num
    have h9 : (n : ℚ) * (1 - 1 / 2 ^ 60) < n := by
      have : (0 : ℚ) < n := by linarith
      nlinarith
    linarith
  · have h2' : 2 * (x : ℚ) * y ≤ (x : ℚ) ^ 2 + n := by exact_mod_cast h2
    have h3 : (2 * (x : ℚ) * y) ^ 2 ≤ ((x : ℚ) ^ 2 + n) ^ 2 := pow_le_pow_left₀ (by positivity) h2' 2
    have hN : (0 : ℚ) < n := by linarith
    have hX : (0 : ℚ) < (x : ℚ) ^ 2 := by positivity
    have h4 : 4 * (x : ℚ) ^ 2 * (y : ℚ) ^ 2 ≤ ((x : ℚ) ^ 2 + n) ^ 2 := by linarith [h3, (by ring : (2 * (x : ℚ) * y) ^ 2 = 4 * (x : ℚ) ^ 2 * (y : ℚ) ^ 2)]
    suffices hs : ((x : ℚ) ^ 2 + n) ^ 2 ≤ 4 * (x : ℚ) ^ 2 * (n * (1 + d')) from
      le_of_mul_le_mul_left (le_trans h4 hs) (by positivity)
    obtain ⟨a1, a2⟩ := h
    exact conv hN a1 a2 hd hc hdc

theorem isqrt_c {n : Nat} (hn : Nrm n) : ∃ r, isqrt n = pure r ∧ 2 ^ 63 ≤ r ∧ SqNear n r (1 / 2 ^ 38) := by
  obtain ⟨n1, n2⟩ := hn
  have hnq : (170141183460469231731687303715884105728 : ℚ) ≤ n := by exact_mod_cast n1
  have hnq' : (n : ℚ) ≤ 340282366920938463463374607431768211456 := by exact_mod_cast n2.le
  have lo : ∀ {y : Nat}, n < (y + 1) ^ 2 → 2 ^ 63 ≤ y := by
    intro y hy
    by_contra hc
    have : (y + 1) ^ 2 ≤ (2 ^ 63) ^ 2 := Nat.pow_le_pow_left (by omega) 2
    norm_num at this
    omega
  have hi : ∀ {y : Nat} {d : ℚ}, d ≤ 1 → SqNear n y d → y < 2 ^ 65 := by
    intro y d hd hy
    by_contra hc
    rw [not_lt] at hc
    have h1 : ((2 : ℚ) ^ 65) ^ 2 ≤ (y : ℚ) ^ 2 := pow_le_pow_left₀ (by norm_num) (by exact_mod_cast hc) 2
    have h2 := hy.2
    have h3 : (n : ℚ) * (1 + d) ≤ n * 2 := mul_le_mul_of_nonneg_left (by linarith) (by linarith)
    have h4 : ((2 : ℚ) ^ 65) ^ 2 ≤ 680564733841876926926749214863536422912 := by linarith
    norm_num at h4
  obtain ⟨x1, s1, a1, b1⟩ := isqrtStep_c (n := n) (x := 13043817825332782212) n2 (by norm_num) (by norm_num)
  have N1 : SqNear n x1 (126 / 1000) := by
    refine sq_step (c := 501 / 1000) (d := 1 / 1000) n1 (by norm_num) ⟨?_, ?_⟩ a1 b1 (by norm_num) (by norm_num) (by norm_num)
    · norm_num; linarith
    · norm_num; linarith
  obtain ⟨x2, s2, a2, b2⟩ := isqrtStep_c (n := n) (x := x1) n2 (lo a1) (hi (by norm_num) N1)
  have N2 : SqNear n x2 (36 / 10000) := sq_step n1 (by have := lo a1; omega) N1 a2 b2 (by norm_num) (by norm_num) (by norm_num)
  obtain ⟨x3, s3, a3, b3⟩ := isqrtStep_c (n := n) (x := x2) n2 (lo a2) (hi (by norm_num) N2)
  have N3 : SqNear n x3 (33 / 10000000) := sq_step n1 (by have := lo a2; omega) N2 a3 b3 (by norm_num) (by norm_num) (by norm_num)
  obtain ⟨x4, s4, a4, b4⟩ := isqrtStep_c (n := n) (x := x3) n2 (lo a3) (hi (by norm_num) N3)
  have N4 : SqNear n x4 (1 / 2 ^ 38) := sq_step n1 (by have := lo a3; omega) N3 a4 b4 (by norm_num) (by norm_num) (by norm_num)
  refine ⟨min x3 x4, ?_, ?_, ?_, ?_⟩
  · rw [isqrt, s1, pure_bind, s2, pure_bind, s3, pure_bind, s4, pure_bind]
  · have := lo a3; have := lo a4; omega
  · rcases le_total x3 x4 with h | h
    · rw [min_eq_left h]; exact N3.1
    · rw [min_eq_right h]; exact N4.1
  · refine le_trans (pow_le_pow_left₀ (by positivity) (by exact_mod_cast min_le_right x3 x4) 2) N4.2

/-! ### where the integer square root reaches `2^64` -/

/-- one step -/
def stp (n x : Nat) : Nat := (x + n / x) / 2

theorem isqrtStep_eq {n x : Nat} (hn : n < B128) (hx : 2 ^ 63 ≤ x) (hx' : x < 2 ^ 65) : isqrtStep n x = pure (stp n x) := by
  have hq : n / x ≤ 2 ^ 65 := by
    have : n / x ≤ n / 2 ^ 63 := Nat.div_le_div_left hx (by norm_num)
    refine le_trans this ?_
    omega
  rw [isqrtStep, uDiv_eq (by omega), pure_bind, u128Add, uAdd_eq (by omega), pure_bind]
  rfl

theorem stp_mono {n n' x x' : Nat} (hn : n ≤ n') (hx : x ≤ x') (h : n' < x * x') : stp n x ≤ stp n' x' := by
  have h0 : 0 < x := Nat.pos_of_ne_zero (by rintro rfl; omega)
  have h1 : n / x ≤ n' / x := Nat.div_le_div_right hn
  have h2 : n' / x ≤ n' / x' + (x' - x) := by
    rw [← Nat.lt_succ_iff, Nat.div_lt_iff_lt_mul h0]
    have a1 := Nat.div_add_mod n' x'
    have a2 := Nat.mod_lt n' (show 0 < x' by omega)
    have a3 : n' / x' < x := Nat.div_lt_of_lt_mul (by rwa [mul_comm] at h)
    obtain ⟨d, rfl⟩ := Nat.exists_eq_add_of_le hx
    generalize n' / (x + d) = q at *
    obtain ⟨k, rfl⟩ := Nat.exists_eq_add_of_lt a3
    rw [Nat.add_sub_cancel_left]
    nlinarith
  unfold stp
  omega

/-- the third and fourth iterate -/
def it₁ (n : Nat) : Nat := stp n 13043817825332782212
def it₂ (n : Nat) : Nat := stp n (it₁ n)
def it₃ (n : Nat) : Nat := stp n (it₂ n)
def it₄ (n : Nat) : Nat := stp n (it₃ n)

theorem it_mono {n n' : Nat} (h0 : 340282366918462583384803846881969963008 ≤ n) (h : n ≤ n') (h1 : n' < B128) :
    it₁ n ≤ it₁ n' ∧ it₂ n ≤ it₂ n' ∧ it₃ n ≤ it₃ n' ∧ it₄ n ≤ it₄ n' ∧ 2 ^ 64 < it₁ n ∧ 2 ^ 64 < it₂ n ∧ 2 ^ 64 < it₃ n := by
  have key : ∀ {x x' : Nat}, 2 ^ 64 < x → x ≤ x' → n' < x * x' := by
    intro x x' a b
    refine lt_of_lt_of_le h1 ?_
    calc B128 = 2 ^ 64 * 2 ^ 64 := by norm_num
      _ ≤ x * x' := Nat.mul_le_mul (by omega) (by omega)
  have m1 : ∀ {a b : Nat}, a ≤ b → it₁ a ≤ it₁ b := by
    intro a b hab
    have : a / 13043817825332782212 ≤ b / 13043817825332782212 := Nat.div_le_div_right hab
    unfold it₁ stp; omega
  have p1 : 2 ^ 64 < it₁ n := lt_of_lt_of_le (by decide +kernel) (m1 h0)
  have hn : n < B128 := by omega
  have key' : ∀ {x x' : Nat}, 2 ^ 64 < x → x ≤ x' → n < x * x' := fun a b => lt_of_le_of_lt h (key a b)
  have p2' : it₂ 340282366918462583384803846881969963008 ≤ it₂ n := stp_mono h0 (m1 h0) (key' (by decide +kernel) (m1 h0))
  have p2 : 2 ^ 64 < it₂ n := lt_of_lt_of_le (by decide +kernel) p2'
  have p3' : it₃ 340282366918462583384803846881969963008 ≤ it₃ n := stp_mono h0 p2' (key' (by decide +kernel) p2')
  have p3 : 2 ^ 64 < it₃ n := lt_of_lt_of_le (by decide +kernel) p3'
  have q1 := m1 h
  have q2 : it₂ n ≤ it₂ n' := stp_mono h q1 (key p1 q1)
  have q3 : it₃ n ≤ it₃ n' := stp_mono h q2 (key p2 q2)
  exact ⟨q1, q2, q3, stp_mono h q3 (key p3 q3), p1, p2, p3⟩

theorem isqrt_top {n : Nat} (h0 : 340282366918462583384803846881969963008 ≤ n) (h1 : n < B128) :
    ∃ r, isqrt n = pure r ∧ (r < 2 ^ 64 ↔ n ≤ 340282366920170965016181418569922962606) ∧ r ≤ 2 ^ 64 + 20803087 := by
  obtain ⟨a1, a2, a3, a4, b1, b2, b3⟩ := it_mono (n' := 340282366920938463463374607431768211455) h0 (by omega) (by norm_num)
  have k1 : it₁ 340282366920938463463374607431768211455 < 2 ^ 65 := by decide +kernel
  have k2 : it₂ 340282366920938463463374607431768211455 < 2 ^ 65 := by decide +kernel
  have k3 : it₃ 340282366920938463463374607431768211455 < 2 ^ 65 := by decide +kernel
  have k4 : it₄ 340282366920938463463374607431768211455 = 2 ^ 64 + 20803087 := by decide +kernel
  refine ⟨min (it₃ n) (it₄ n), ?_, ?_, by omega⟩
  · rw [isqrt, isqrtStep_eq h1 (by norm_num) (by norm_num), pure_bind, ← it₁, isqrtStep_eq h1 (by omega) (by omega), pure_bind, ← it₂,
      isqrtStep_eq h1 (by omega) (by omega), pure_bind, ← it₃, isqrtStep_eq h1 (by omega) (by omega), pure_bind, ← it₄]
  · constructor
    · intro h
      by_contra hc
      obtain ⟨-, -, -, c4, -⟩ := it_mono (n := 340282366920170965016181418569922962607) (n' := n) (by norm_num) (by omega) h1
      have : it₄ 340282366920170965016181418569922962607 = 2 ^ 64 := by decide +kernel
      omega
    · intro h
      obtain ⟨-, -, -, c4, -⟩ := it_mono (n := n) (n' := 340282366920170965016181418569922962606) h0 h (by norm_num)
      have : it₄ 340282366920170965016181418569922962606 = 2 ^ 64 - 1 := by decide +kernel
      omega

/-! ### the Newton steps -/

theorem exp_near {m e m' e' : Nat} (h : Nrm m) (h' : Nrm m') (hl : mg m e ≤ 2 * mg m' e') : e ≤ e' + 1 := by
  by_contra hc
  have := mg_lt_of_exp h' h (e₁ := e' + 1) (e₂ := e) (by omega)
  rw [mg_add] at this
  linarith

theorem nt1 {A q T y : ℚ} (hA : 0 < A) (h : q * A ≤ y) (h2 : T * 2 ≤ A + q) : 2 * A * T ≤ A ^ 2 + y := by nlinarith
theorem nt2 {A q x : ℚ} (h : x ≤ q * A) : 4 * x ≤ (A + q) ^ 2 := by nlinarith [sq_nonneg (A - q)]
theorem nt3 {T x k : ℚ} (h : 4 * x ≤ (T * 2 * k) ^ 2) : x ≤ T ^ 2 * k ^ 2 := by nlinarith
theorem nt4 {T A x l u : ℚ} (hx : 0 < x) (h1 : T ^ 2 ≤ x * u) (h2 : x * l ≤ A ^ 2) (hul : u ≤ 4 * l) : T ^ 2 ≤ (2 * A) ^ 2 := by
  have := mul_le_mul_of_nonneg_left hul hx.le
  nlinarith

theorem newton_raw {m e a f : Nat} (hm : Nrm m) (ha : Nrm a) (he : Ex e) (hf : Ex f) (w1 : e ≤ f + 549755813886) (w2 : f ≤ e + 549755813886) :
    ∃ (b g : Nat) (q : ℚ), Nrm b ∧ newton (mk' false m e) (mk' false a f) = pure (mk' false b g) ∧ 0 < q ∧
      mg m e ≤ q * mg a f ∧ q * mg a f ≤ mg m e * (1 + 1 / 2 ^ 124) ∧
      mg b g * 2 ≤ mg a f + q ∧ mg a f + q ≤ mg b g * 2 * (1 + 1 / 2 ^ 127) := by
  have x1 := hf.1
  have x2 := hf.2
  have dp : DPair e f e f := ⟨⟨he.logE, hf.ge.he, he, hf, ⟨0, by omega⟩, ⟨0, by omega⟩⟩, w1, w2⟩
  obtain ⟨q, k, q1, q2, q3, q4, q5⟩ := div_err' (a := false) (b := false) hm ha dp.toDMod (by omega) (dp.np hm ha) rfl
  have y1 := q2.1
  have y2 := q2.2
  rcases add_same (s := false) ha q1 (e₁ := f) (e₂ := k) (by omega) (by omega) (nz_exp (by omega)) (nz_exp (by omega)) with
    ⟨-, h | h⟩ | ⟨t, g, t1, t2, t3, t4, t5, t6, t7, t8⟩
  · omega
  · omega
  obtain ⟨g, rfl⟩ : ∃ g', g = g' + 1 := ⟨g - 1, by omega⟩
  have pa := mg_pos (e := f) ha
  have v1 := t8.1
  have v2 := t8.2
  have hu : ulp (g + 1) * 2 ^ 127 ≤ mg t (g + 1) := by
    rw [mg_eq, mul_comm]
    refine mul_le_mul_of_nonneg_right ?_ (ulp_pos _).le
    have := t1.1
    exact_mod_cast this
  rw [mg_add, pow_one] at v1 v2 hu
  rw [div_le_iff₀ pa] at q4
  rw [div_mul_eq_mul_div, le_div_iff₀ pa] at q5
  refine ⟨t, g, mg q k, t1, ?_, mg_pos q1, q4, q5, v1, ?_⟩
  · rw [newton, q3, pure_bind, show (false != false) = false from rfl, t7, pure_bind, shr_mk t1 (nz_exp (by omega)) (by omega)]
    rfl
  · have : ulp (g + 1) ≤ mg t g * 2 * (1 / 2 ^ 127) := by
      rw [mul_one_div, le_div_iff₀ (by norm_num)]; linarith
    linarith

theorem newton_c {m e a f : Nat} (hm : Nrm m) (ha : Nrm a) (he : Ex e) (hf : Ex f) (w1 : e ≤ f + 549755813886)
    (w2 : f ≤ e + 549755813886) {c d d' : ℚ}
    (l : mg m e * (1 - c) ≤ mg a f ^ 2) (u : mg a f ^ 2 ≤ mg m e * (1 + d)) (hc0 : c ≤ 1 / 2) (hd1 : d ≤ 1 / 2)
    (hd : d ^ 2 ≤ 4 * (1 + d) * d')
    (hc : (c + 1 / 2 ^ 124) ^ 2 ≤ 4 * (1 - (c + 1 / 2 ^ 124)) * d') (hdc : 0 < d + (c + 1 / 2 ^ 124)) (c0 : 0 ≤ c) (hd' : d' ≤ 1 / 2) :
    ∃ b g, Nrm b ∧ g ≤ f + 1 ∧ f ≤ g + 1 ∧ newton (mk' false m e) (mk' false a f) = pure (mk' false b g) ∧
      mg m e * (1 - 1 / 2 ^ 126) ≤ mg b g ^ 2 ∧ mg b g ^ 2 ≤ mg m e * ((1 + 1 / 2 ^ 124) * (1 + d')) := by
  obtain ⟨t, g, q, t1, t7, pq, q4, q5, v1, v2⟩ := newton_raw hm ha he hf w1 w2
  have pa := mg_pos (e := f) ha
  have px := mg_pos (e := e) hm
  have pt := mg_pos (e := g) t1
  -- upper bound
  have U : mg t g ^ 2 ≤ mg m e * ((1 + 1 / 2 ^ 124) * (1 + d')) := by
    have h1 : 2 * mg a f * mg t g ≤ mg a f ^ 2 + mg m e * (1 + 1 / 2 ^ 124) := nt1 pa q5 v1
    have h2 := pow_le_pow_left₀ (by positivity) h1 2
    have h3 := conv (X := mg a f ^ 2) (N := mg m e * (1 + 1 / 2 ^ 124)) (c := c + 1 / 2 ^ 124) (d := d) (d' := d') (by positivity)
      (by
        refine le_trans ?_ l
        rw [mul_assoc]
        refine mul_le_mul_of_nonneg_left ?_ px.le
        norm_num; linarith)
      (by
        refine le_trans u ?_
        rw [mul_assoc]
        refine mul_le_mul_of_nonneg_left ?_ px.le
        have : 0 ≤ 1 + d := by
          have : 0 ≤ mg m e * (1 + d) := le_trans (by positivity) u
          exact nonneg_of_mul_nonneg_right this px
        linarith) hd hc hdc
    have h4 := le_trans h2 h3
    rw [show (2 * mg a f * mg t g) ^ 2 = 4 * mg a f ^ 2 * mg t g ^ 2 by ring] at h4
    have := le_of_mul_le_mul_left h4 (by positivity)
    rwa [mul_assoc] at this
  have L : mg m e * (1 - 1 / 2 ^ 126) ≤ mg t g ^ 2 := by
    have h2 : 4 * mg m e ≤ (mg a f + q) ^ 2 := nt2 q4
    have h3 := le_trans h2 (pow_le_pow_left₀ (by positivity) v2 2)
    have h4 : mg m e ≤ mg t g ^ 2 * (1 + 1 / 2 ^ 127) ^ 2 := nt3 h3
    calc mg m e * (1 - 1 / 2 ^ 126) ≤ mg t g ^ 2 * (1 + 1 / 2 ^ 127) ^ 2 * (1 - 1 / 2 ^ 126) :=
          mul_le_mul_of_nonneg_right h4 (by norm_num)
      _ = mg t g ^ 2 * ((1 + 1 / 2 ^ 127) ^ 2 * (1 - 1 / 2 ^ 126)) := by ring
      _ ≤ mg t g ^ 2 * 1 := mul_le_mul_of_nonneg_left (by norm_num) (by positivity)
      _ = mg t g ^ 2 := mul_one _
  refine ⟨t, g, t1, ?_, ?_, ?_, L, U⟩
  · refine exp_near t1 ha ?_
    refine abs_le_of_sq_le_sq' ?_ (by positivity) |>.2
    refine nt4 px U l ?_
    have : (1 + 1 / 2 ^ 124 : ℚ) * (1 + d') ≤ (1 + 1 / 2 ^ 124) * (1 + 1 / 2) := mul_le_mul_of_nonneg_left (by linarith) (by norm_num)
    refine le_trans this ?_
    norm_num; linarith
  · refine exp_near ha t1 ?_
    refine abs_le_of_sq_le_sq' ?_ (by positivity) |>.2
    refine nt4 px u L ?_
    norm_num; linarith
  · exact t7

/-! ### the start -/

theorem ulp_sq {f e j : Nat} (h : 2 * f + j = e + 281474976710656) : ulp f ^ 2 * 2 ^ j = ulp e := by
  unfold ulp
  rw [← zpow_natCast, ← zpow_natCast, ← zpow_mul, ← zpow_add₀ (by norm_num)]
  congr 1
  push_cast
  omega

theorem sqrt2_mk : SQRT_2 = mk' false 240615969168004511545033772477625056927 281474976710529 := by decide +kernel

theorem sqrt2_sq : (2 : ℚ) * (1 - 1 / 2 ^ 126) ≤ mg 240615969168004511545033772477625056927 281474976710529 ^ 2 ∧
    mg 240615969168004511545033772477625056927 281474976710529 ^ 2 ≤ 2 := by
  rw [show 281474976710529 = 281474976710656 - 127 by norm_num, mg_coeff_sub (by norm_num)]
  norm_num

theorem odd_bounds {Y A P S : ℚ} (hA : 0 < A) (hS : 0 < S) (hY : 2 * A ^ 2 = Y)
    (s1 : 2 * (1 - 1 / 2 ^ 126) ≤ S ^ 2) (s2 : S ^ 2 ≤ 2) (p1 : A * S * (1 - 3 / 2 ^ 126) ≤ P) (p2 : P ≤ A * S) :
    Y * (1 - 1 / 2 ^ 123) ≤ P ^ 2 ∧ P ^ 2 ≤ Y := by
  have hP : 0 ≤ P := le_trans (by norm_num; positivity) p1
  constructor
  · have h1 := pow_le_pow_left₀ (by norm_num; positivity) p1 2
    refine le_trans ?_ h1
    calc Y * (1 - 1 / 2 ^ 123) ≤ Y * ((1 - 1 / 2 ^ 126) * (1 - 3 / 2 ^ 126) ^ 2) :=
          mul_le_mul_of_nonneg_left (by norm_num) (by rw [← hY]; positivity)
      _ = A ^ 2 * (2 * (1 - 1 / 2 ^ 126)) * (1 - 3 / 2 ^ 126) ^ 2 := by rw [← hY]; ring
      _ ≤ A ^ 2 * S ^ 2 * (1 - 3 / 2 ^ 126) ^ 2 := mul_le_mul_of_nonneg_right (mul_le_mul_of_nonneg_left s1 (by positivity)) (by norm_num)
      _ = (A * S * (1 - 3 / 2 ^ 126)) ^ 2 := by ring
  · refine le_trans (pow_le_pow_left₀ hP p2 2) ?_
    calc (A * S) ^ 2 = A ^ 2 * S ^ 2 := by ring
      _ ≤ A ^ 2 * 2 := mul_le_mul_of_nonneg_left s2 (by positivity)
      _ = Y := by rw [← hY]; ring

theorem asU64_nat {z : Int} {f : Nat} (h : z = f) (hf : f < B64) : asU64 z = f := by
  rw [asU64, h]; omega

theorem half_le₁ {A S c P : ℚ} (h : A * S * c ≤ P * 2) : A / 2 * S * c ≤ P := by linarith
theorem half_le₂ {A S P : ℚ} (h : P * 2 ≤ A * S) : P ≤ A / 2 * S := by linarith

theorem tdiv_two (E : Int) : E.tdiv 2 = if E < 0 then -(-E / 2) else E / 2 := by
  split
  · rw [← Int.tdiv_eq_ediv_of_nonneg (by omega), Int.neg_tdiv, neg_neg]
  · rw [Int.tdiv_eq_ediv_of_nonneg (by omega)]

/-- the exponents for which the start of the iteration does not panic -/
def Se (e : Nat) : Prop := 0 < e ∧ e < 9223372036854775808

theorem Ex.se {e : Nat} (h : Ex e) : Se e := ⟨by have := h.1; omega, by have := h.2; omega⟩

/-- the start of the iteration for a mantissa `R` of the approximation -/
theorem sqrtStart_raw {m e r R : Nat} (hm : Nrm m) (he : Se e) (r1 : isqrt m = pure r) (hN : Nrm R)
    (hR : r * 2 ^ 64 % 2 ^ 128 &&& LOW_MASK = dg false R) :
    ∃ a f, Nrm a ∧ sqrtStart (mk' false m e) = pure (mk' false a f) ∧ 2 * f + 130 ≤ e + 281474976710656 + 10 ∧ e + 281474976710656 ≤ 2 * f + 140 ∧
      (R : ℚ) ^ 2 / 2 ^ 128 * ulp e * (1 - 1 / 2 ^ 123) ≤ mg a f ^ 2 ∧ mg a f ^ 2 ≤ (R : ℚ) ^ 2 / 2 ^ 128 * ulp e := by
  have x1 := he.1
  have x2 := he.2
  have hsq : ∀ (f j : Nat), 2 * f + j = e + 281474976710656 → (mg R f) ^ 2 * 2 ^ j = (R : ℚ) ^ 2 * ulp e := by
    intro f j h
    rw [mg_eq, ← ulp_sq h]
    ring
  obtain ⟨f, j, hf1, hf2, hf3⟩ : ∃ f j : Nat, ((e : Int) - 281474976710656).tdiv 2 - 64 + 281474976710656 = f ∧
      2 * f + j = e + 281474976710656 ∧
      ((j = 128 ∧ ((e : Int) - 281474976710656).natAbs % 2 = 0) ∨
        (j = 129 ∧ ((e : Int) - 281474976710656).natAbs % 2 = 1 ∧ ¬(e : Int) - 281474976710656 < 0) ∨
        (j = 127 ∧ ((e : Int) - 281474976710656).natAbs % 2 = 1 ∧ (e : Int) - 281474976710656 < 0)) := by
    rw [tdiv_two]
    by_cases h0 : (e : Int) - 281474976710656 < 0
    · rw [if_pos h0]
      rcases Nat.mod_two_eq_zero_or_one ((e : Int) - 281474976710656).natAbs with h | h
      · exact ⟨(e + 281474976710656 - 128) / 2, 128, by omega, by omega, Or.inl ⟨rfl, h⟩⟩
      · exact ⟨(e + 281474976710656 - 127) / 2, 127, by omega, by omega, Or.inr (Or.inr ⟨rfl, h, h0⟩)⟩
    · rw [if_neg h0]
      rcases Nat.mod_two_eq_zero_or_one ((e : Int) - 281474976710656).natAbs with h | h
      · exact ⟨(e + 281474976710656 - 128) / 2, 128, by omega, by omega, Or.inl ⟨rfl, h⟩⟩
      · exact ⟨(e + 281474976710656 - 129) / 2, 129, by omega, by omega, Or.inr (Or.inl ⟨rfl, h, h0⟩)⟩
  have hs := hsq f j hf2
  have pA := mg_pos (e := f) hN
  have pY : 0 < (R : ℚ) ^ 2 / 2 ^ 128 * ulp e := by
    have : (0 : ℚ) < R := by exact_mod_cast (by have := hN.1; omega : 0 < R)
    exact mul_pos (div_pos (pow_pos this 2) (by norm_num)) (ulp_pos e)
  have b1 : -9223372036854775808 ≤ (f : Int) - 281474976710656 ∧ (f : Int) - 281474976710656 ≤ 9223372036854775807 := by omega
  rw [sqrtStart, or_mk hm, expI64_c (by omega), pure_bind, r1, pure_bind, i64Abs, if_neg (by omega), pure_bind,
    i64_eq (by omega) (by omega), pure_bind, show (EXP_COEFF : Int) = 281474976710656 from rfl, hf1, i64_eq (by omega) (by omega), pure_bind,
    asU64_nat rfl (by omega), hR]
  change ∃ a g, Nrm a ∧ (if ((e : Int) - 281474976710656).natAbs % 2 = 1 then
    (mul (mk' false R f) SQRT_2 >>= fun approx => pure (if (e : Int) - 281474976710656 < 0 then shr approx 1 else approx))
    else pure (mk' false R f)) = pure (mk' false a g) ∧ _
  have pS := mg_pos (e := 281474976710529) (m := 240615969168004511545033772477625056927) ⟨by norm_num, by norm_num⟩
  obtain ⟨q1, q2⟩ := sqrt2_sq
  obtain ⟨p, k, p1, p2, p3, p4, p5, p6, p7, p8⟩ := mul_c (a := false) (b := false) hN
    (m₂ := 240615969168004511545033772477625056927) ⟨by norm_num, by norm_num⟩ (e₁ := f) (e₂ := 281474976710529)
    (nz_exp (by omega)) (nz_exp (by omega)) (by omega) (by omega)
  rcases hf3 with ⟨rfl, h⟩ | ⟨rfl, h, h'⟩ | ⟨rfl, h, h'⟩
  · rw [if_neg (by omega)]
    have : mg R f ^ 2 = (R : ℚ) ^ 2 / 2 ^ 128 * ulp e := by
      have : mg R f ^ 2 * 2 ^ 128 = ((R : ℚ) ^ 2 / 2 ^ 128 * ulp e) * 2 ^ 128 := by rw [hs]; ring
      exact mul_right_cancel₀ (by norm_num) this
    refine ⟨_, f, hN, rfl, by omega, by omega, ?_, ?_⟩
    · rw [this]
      exact mul_le_of_le_one_right pY.le (by norm_num)
    · rw [this]
  · rw [if_pos h, sqrt2_mk, p6, pure_bind, if_neg h']
    have hA : 2 * mg R f ^ 2 = (R : ℚ) ^ 2 / 2 ^ 128 * ulp e := by
      have : 2 * mg R f ^ 2 * 2 ^ 128 = ((R : ℚ) ^ 2 / 2 ^ 128 * ulp e) * 2 ^ 128 := by
        linarith [hs, (by ring : 2 * mg R f ^ 2 * 2 ^ 128 = mg R f ^ 2 * 2 ^ 129)]
      exact mul_right_cancel₀ (by norm_num) this
    have := odd_bounds pA pS hA q1 q2 p8 p7
    exact ⟨p, k, p1, rfl, by omega, by omega, this⟩
  · rw [if_pos h, sqrt2_mk, p6, pure_bind, if_pos h', shr_mk p1 (nz_exp (by omega)) (by omega)]
    obtain ⟨k, rfl⟩ : ∃ k', k = k' + 1 := ⟨k - 1, by omega⟩
    have hA : 2 * (mg R f / 2) ^ 2 = (R : ℚ) ^ 2 / 2 ^ 128 * ulp e := by
      have : 2 * (mg R f / 2) ^ 2 * 2 ^ 128 = ((R : ℚ) ^ 2 / 2 ^ 128 * ulp e) * 2 ^ 128 := by
        rw [show 2 * (mg R f / 2) ^ 2 * 2 ^ 128 = mg R f ^ 2 * 2 ^ 127 by ring, hs]; ring
      exact mul_right_cancel₀ (by norm_num) this
    rw [mg_add, pow_one] at p7 p8
    have := odd_bounds (P := mg p k) (half_pos pA) pS hA q1 q2 (half_le₁ p8) (half_le₂ p7)
    exact ⟨p, k, p1, rfl, by omega, by omega, this⟩

theorem sqrtStart_c {m e : Nat} (hm : Nrm m) (hm' : m ≤ 340282366920170965016181418569922962606) (he : Se e) :
    ∃ a f, Nrm a ∧ sqrtStart (mk' false m e) = pure (mk' false a f) ∧ 2 * f + 130 ≤ e + 281474976710656 + 10 ∧ e + 281474976710656 ≤ 2 * f + 140 ∧
      mg m e * (1 - 1 / 2 ^ 59) ≤ mg a f ^ 2 ∧ mg a f ^ 2 ≤ mg m e * (1 + 1 / 2 ^ 37) := by
  obtain ⟨r, r1, r2, r3, r4⟩ := isqrt_c hm
  have hr : r < 2 ^ 64 := by
    by_cases hlo : m < 340282366918462583384803846881969963008
    · by_contra hc
      rw [not_lt] at hc
      have h1 : ((2 : ℚ) ^ 64) ^ 2 ≤ (r : ℚ) ^ 2 := pow_le_pow_left₀ (by norm_num) (by exact_mod_cast hc) 2
      have h2 : (m : ℚ) ≤ 340282366918462583384803846881969963008 := by exact_mod_cast hlo.le
      have h3 := le_trans h1 r4
      have h4 : (m : ℚ) * (1 + 1 / 2 ^ 38) ≤ 340282366918462583384803846881969963008 * (1 + 1 / 2 ^ 38) :=
        mul_le_mul_of_nonneg_right h2 (by norm_num)
      have h5 := le_trans h3 h4
      norm_num at h5
    · obtain ⟨r', k1, k2, -⟩ := isqrt_top (n := m) (by omega) hm.2
      rw [r1] at k1
      rw [show r = r' from Except.ok.inj (Option.some.inj k1)]
      exact k2.2 hm'
  have hN : Nrm (r * 2 ^ 64) := ⟨by omega, by omega⟩
  obtain ⟨a, f, g1, g2, g3, g4, g5, g6⟩ := sqrtStart_raw hm he r1 hN (by rw [Nat.mod_eq_of_lt (by omega), low_eq hN])
  have px := mg_pos (e := e) hm
  have hl : mg m e * (1 - 1 / 2 ^ 60) ≤ (r : ℚ) ^ 2 * ulp e := by
    rw [mg_eq, mul_right_comm]; exact mul_le_mul_of_nonneg_right r3 (ulp_pos e).le
  have hu : (r : ℚ) ^ 2 * ulp e ≤ mg m e * (1 + 1 / 2 ^ 38) := by
    rw [mg_eq, mul_right_comm]; exact mul_le_mul_of_nonneg_right r4 (ulp_pos e).le
  have hY : ((r * 2 ^ 64 : Nat) : ℚ) ^ 2 / 2 ^ 128 * ulp e = (r : ℚ) ^ 2 * ulp e := by
    push_cast; ring
  rw [hY] at g5 g6
  refine ⟨a, f, g1, g2, g3, g4, le_trans ?_ g5, le_trans g6 (le_trans hu (mul_le_mul_of_nonneg_left (by norm_num) px.le))⟩
  refine le_trans ?_ (mul_le_mul_of_nonneg_right hl (by norm_num))
  rw [mul_assoc]
  exact mul_le_mul_of_nonneg_left (by norm_num) px.le

/-- above the threshold the approximation is half the root -/
theorem sqrtStart_top {m e : Nat} (hm : Nrm m) (hm' : 340282366920170965016181418569922962606 < m) (he : Se e) :
    ∃ a f, Nrm a ∧ sqrtStart (mk' false m e) = pure (mk' false a f) ∧ 2 * f + 130 ≤ e + 281474976710656 + 10 ∧ e + 281474976710656 ≤ 2 * f + 140 ∧
      mg m e * (2499 / 10000) ≤ mg a f ^ 2 ∧ mg a f ^ 2 ≤ mg m e * (2501 / 10000) := by
  obtain ⟨r, r1, r2, r3⟩ := isqrt_top (n := m) (by omega) hm.2
  obtain ⟨d, rfl⟩ : ∃ d, r = 2 ^ 64 + d := ⟨r - 2 ^ 64, by omega⟩
  have hN : Nrm (2 ^ 127 + d * 2 ^ 64) := ⟨by omega, by omega⟩
  obtain ⟨a, f, g1, g2, g3, g4, g5, g6⟩ := sqrtStart_raw hm he r1 hN (by
    rw [show LOW_MASK = 2 ^ 127 - 1 by decide, Nat.and_two_pow_sub_one_eq_mod, dg_false]; omega)
  refine ⟨a, f, g1, g2, g3, g4, ?_, ?_⟩
  · refine le_trans ?_ g5
    rw [mg_eq, mul_right_comm, mul_right_comm _ (ulp e)]
    refine mul_le_mul_of_nonneg_right ?_ (ulp_pos e).le
    have h1 : (m : ℚ) ≤ 340282366920938463463374607431768211456 := by exact_mod_cast hm.2.le
    have h2 : ((2 : ℚ) ^ 127) ^ 2 ≤ ((2 ^ 127 + d * 2 ^ 64 : Nat) : ℚ) ^ 2 := by
      refine pow_le_pow_left₀ (by norm_num) ?_ 2
      push_cast
      have : (0 : ℚ) ≤ d := by positivity
      linarith [mul_nonneg this (by norm_num : (0 : ℚ) ≤ 2 ^ 64)]
    generalize ((2 ^ 127 + d * 2 ^ 64 : Nat) : ℚ) ^ 2 = W at *
    norm_num at h2 ⊢
    linarith
  · refine le_trans g6 ?_
    rw [mg_eq, mul_right_comm]
    refine mul_le_mul_of_nonneg_right ?_ (ulp_pos e).le
    have h1 : (340282366920170965016181418569922962606 : ℚ) ≤ m := by exact_mod_cast hm'.le
    have h2 : ((2 ^ 127 + d * 2 ^ 64 : Nat) : ℚ) ^ 2 ≤ ((2 : ℚ) ^ 127 + 20803087 * 2 ^ 64) ^ 2 := by
      refine pow_le_pow_left₀ (by positivity) ?_ 2
      push_cast
      have : (d : ℚ) ≤ 20803087 := by exact_mod_cast (by omega : d ≤ 20803087)
      linarith [mul_le_mul_of_nonneg_right this (by norm_num : (0 : ℚ) ≤ 2 ^ 64)]
    generalize ((2 ^ 127 + d * 2 ^ 64 : Nat) : ℚ) ^ 2 = W at *
    norm_num at h2 ⊢
    linarith

theorem sqrt_c {m e : Nat} (hm : Nrm m) (hm' : m ≤ 340282366920170965016181418569922962606) (he : Ex e) :
    ∃ b g, Nrm b ∧ Ex g ∧ sqrt (mk' false m e) = pure (mk' false b g) ∧
      mg m e * (1 - 1 / 2 ^ 126) ≤ mg b g ^ 2 ∧ mg b g ^ 2 ≤ mg m e * (1 + 1 / 2 ^ 124 + 1 / 2 ^ 148) := by
  have x1 := he.1
  have x2 := he.2
  have px := mg_pos (e := e) hm
  obtain ⟨a, f, a1, a2, a3, a4, a5, a6⟩ := sqrtStart_c hm hm' he.se
  obtain ⟨b, g, b1, b2, b3, b4, b5, b6⟩ := newton_c (d' := 1 / 2 ^ 75) hm a1 he (f := f) ⟨by omega, by omega⟩ (by omega) (by omega) a5 a6
    (by norm_num) (by norm_num) (by norm_num) (by norm_num) (by norm_num) (by norm_num) (by norm_num)
  obtain ⟨c, h, c1, c2, c3, c4, c5, c6⟩ := newton_c (d := 1 / 2 ^ 74) (d' := 1 / 2 ^ 149) hm b1 he (f := g) ⟨by omega, by omega⟩ (by omega)
    (by omega) b5 (le_trans b6 (mul_le_mul_of_nonneg_left (by norm_num) px.le)) (by norm_num) (by norm_num)
    (by norm_num) (by norm_num) (by norm_num) (by norm_num) (by norm_num)
  refine ⟨c, h, c1, ⟨by omega, by omega⟩, ?_, c5, le_trans c6 (mul_le_mul_of_nonneg_left (by norm_num) px.le)⟩
  rw [sqrt, is_zero_mk hm, is_neg_mk hm, if_neg, a2, pure_bind, b4, pure_bind, c4]
  simp
  omega

/-! ### a mantissa near `2^128` -/

/-- one step from an approximation `A` with `A² = tX`: the square of the next one is `(t + 2 + 1/t)X / 4` -/
theorem step_bounds {X A B q l u l' u' : ℚ} (hX : 0 < X) (hA : 0 < A) (hB : 0 < B) (hq : 0 < q) (l0 : 0 < l) (u0 : 0 < u)
    (a1 : X * l ≤ A ^ 2) (a2 : A ^ 2 ≤ X * u) (h1 : X ≤ q * A) (h2 : q * A ≤ X * (1 + 1 / 2 ^ 124))
    (h3 : B * 2 ≤ A + q) (h4 : A + q ≤ B * 2 * (1 + 1 / 2 ^ 127))
    (k1 : l' * (4 * (1 + 1 / 2 ^ 120)) ≤ l + 2 + 1 / u) (k2 : u + (2 + 1 / l) * (1 + 1 / 2 ^ 120) ≤ u' * 4) :
    X * l' ≤ B ^ 2 ∧ B ^ 2 ≤ X * u' := by
  have hlow : X * (1 / u) ≤ q ^ 2 := by
    rw [mul_one_div, div_le_iff₀ u0]
    have e1 : X ^ 2 ≤ (q * A) ^ 2 := pow_le_pow_left₀ hX.le h1 2
    have e2 : (q * A) ^ 2 ≤ q ^ 2 * (X * u) := by rw [mul_pow]; exact mul_le_mul_of_nonneg_left a2 (by positivity)
    have e3 : X * X ≤ q ^ 2 * u * X := by nlinarith
    exact le_of_mul_le_mul_right e3 hX
  have hhigh : q ^ 2 ≤ X * (1 / l) * (1 + 1 / 2 ^ 120) := by
    rw [mul_one_div, div_mul_eq_mul_div, le_div_iff₀ l0]
    have e1 : (q * A) ^ 2 ≤ (X * (1 + 1 / 2 ^ 124)) ^ 2 := pow_le_pow_left₀ (by positivity) h2 2
    have e2 : q ^ 2 * (X * l) ≤ (q * A) ^ 2 := by rw [mul_pow]; exact mul_le_mul_of_nonneg_left a1 (by positivity)
    have e3 : q ^ 2 * l * X ≤ X * (1 + 1 / 2 ^ 124) ^ 2 * X := by nlinarith
    refine le_trans (le_of_mul_le_mul_right e3 hX) (mul_le_mul_of_nonneg_left (by norm_num) hX.le)
  constructor
  · have e1 : (A + q) ^ 2 ≤ (B * 2 * (1 + 1 / 2 ^ 127)) ^ 2 := pow_le_pow_left₀ (by positivity) h4 2
    have e2 : X * (l + 2 + 1 / u) ≤ (A + q) ^ 2 := by nlinarith
    have e3 : X * (l' * (4 * (1 + 1 / 2 ^ 120))) ≤ B ^ 2 * (4 * (1 + 1 / 2 ^ 120)) := by
      refine le_trans (mul_le_mul_of_nonneg_left k1 hX.le) (le_trans e2 (le_trans e1 ?_))
      rw [show (B * 2 * (1 + 1 / 2 ^ 127 : ℚ)) ^ 2 = B ^ 2 * (4 * (1 + 1 / 2 ^ 127) ^ 2) by ring]
      exact mul_le_mul_of_nonneg_left (by norm_num) (by positivity)
    rw [← mul_assoc] at e3
    exact le_of_mul_le_mul_right e3 (by norm_num)
  · have e1 : (B * 2) ^ 2 ≤ (A + q) ^ 2 := pow_le_pow_left₀ (by positivity) h3 2
    have e2 : q * A ≤ X * (1 + 1 / 2 ^ 120) := le_trans h2 (mul_le_mul_of_nonneg_left (by norm_num) hX.le)
    have e3 : X * (u + (2 + 1 / l) * (1 + 1 / 2 ^ 120)) ≤ X * (u' * 4) := mul_le_mul_of_nonneg_left k2 hX.le
    have e4 : (A + q) ^ 2 ≤ X * (u + (2 + 1 / l) * (1 + 1 / 2 ^ 120)) := by
      generalize (1 : ℚ) + 1 / 2 ^ 120 = w at *
      nlinarith
    nlinarith

/-- above the threshold the result is 2.5 percent too large -/
theorem sqrt_top {m e : Nat} (hm : Nrm m) (hm' : 340282366920170965016181418569922962606 < m) (he : Ex e) :
    ∃ b g, Nrm b ∧ Ex g ∧ sqrt (mk' false m e) = pure (mk' false b g) ∧
      mg m e * (105 / 100) ≤ mg b g ^ 2 ∧ mg b g ^ 2 ≤ mg m e * (1051 / 1000) := by
  have x1 := he.1
  have x2 := he.2
  have px := mg_pos (e := e) hm
  obtain ⟨a, f, a1, a2, a3, a4, a5, a6⟩ := sqrtStart_top hm hm' he.se
  have pa := mg_pos (e := f) a1
  obtain ⟨b, g, q, b1, b2, b3, b4, b5, b6, b7⟩ := newton_raw hm a1 he (f := f) ⟨by omega, by omega⟩ (by omega) (by omega)
  have pb := mg_pos (e := g) b1
  obtain ⟨c5, c6⟩ := step_bounds (l' := 1562 / 1000) (u' := 1563 / 1000) px pa pb b3 (by norm_num) (by norm_num) a5 a6 b4 b5 b6 b7
    (by norm_num) (by norm_num)
  have g1 : g ≤ f + 1 + 1 := by
    refine exp_near b1 a1 ?_
    rw [mg_add, pow_one]
    refine abs_le_of_sq_le_sq' ?_ (by positivity) |>.2
    linarith [show (2 * (mg a f * 2)) ^ 2 = 16 * mg a f ^ 2 by ring]
  have g2 : f ≤ g + 1 := by
    refine exp_near a1 b1 ?_
    refine abs_le_of_sq_le_sq' ?_ (by positivity) |>.2
    linarith [show (2 * mg b g) ^ 2 = 4 * mg b g ^ 2 by ring]
  obtain ⟨c, h, p, d1, d2, d3, d4, d5, d6, d7⟩ := newton_raw hm b1 he (f := g) ⟨by omega, by omega⟩ (by omega) (by omega)
  have pc := mg_pos (e := h) d1
  obtain ⟨w1, w2⟩ := step_bounds (l' := 105 / 100) (u' := 1051 / 1000) px pb pc d3 (by norm_num) (by norm_num) c5 c6 d4 d5 d6 d7
    (by norm_num) (by norm_num)
  have h1 : h ≤ g + 1 := by
    refine exp_near d1 b1 ?_
    refine abs_le_of_sq_le_sq' ?_ (by positivity) |>.2
    linarith [show (2 * mg b g) ^ 2 = 4 * mg b g ^ 2 by ring]
  have h2 : g ≤ h + 1 := by
    refine exp_near b1 d1 ?_
    refine abs_le_of_sq_le_sq' ?_ (by positivity) |>.2
    linarith [show (2 * mg c h) ^ 2 = 4 * mg c h ^ 2 by ring]
  refine ⟨c, h, d1, ⟨by omega, by omega⟩, ?_, w1, w2⟩
  rw [sqrt, is_zero_mk hm, is_neg_mk hm, if_neg, a2, pure_bind, b2, pure_bind, d2]
  simp
  omega

theorem sqrtStart_any {m e : Nat} (hm : Nrm m) (he : Se e) :
    ∃ a f, Nrm a ∧ sqrtStart (mk' false m e) = pure (mk' false a f) ∧ 2 * f + 130 ≤ e + 281474976710656 + 10 ∧
      e + 281474976710656 ≤ 2 * f + 140 ∧ mg m e * (249 / 1000) ≤ mg a f ^ 2 ∧ mg a f ^ 2 ≤ mg m e * (1001 / 1000) := by
  have px := (mg_pos (e := e) hm).le
  rcases le_or_gt m 340282366920170965016181418569922962606 with h | h
  · obtain ⟨a, f, g1, g2, g3, g4, g5, g6⟩ := sqrtStart_c hm h he
    exact ⟨a, f, g1, g2, g3, g4, le_trans (mul_le_mul_of_nonneg_left (by norm_num) px) g5, g6.trans (mul_le_mul_of_nonneg_left (by norm_num) px)⟩
  · obtain ⟨a, f, g1, g2, g3, g4, g5, g6⟩ := sqrtStart_top hm h he
    exact ⟨a, f, g1, g2, g3, g4, le_trans (mul_le_mul_of_nonneg_left (by norm_num) px) g5, g6.trans (mul_le_mul_of_nonneg_left (by norm_num) px)⟩

end F192
end Hmath
