import Verif.Spec.Fp192
import Mathlib.Algebra.Order.Field.Basic
import Mathlib.Algebra.Order.Ring.Abs
import Mathlib.Tactic.Linarith
import Mathlib.Tactic.Ring
import Mathlib.Tactic.Positivity
import Mathlib.Tactic.NormNum
import Mathlib.Algebra.Order.Field.Power
import Mathlib.Data.Nat.Bitwise

/-!
# 192-bit floating point numbers: representation and comparison
-/

namespace Hmath
namespace F192

/-- `2^127` -/
scoped notation "S127" => (170141183460469231731687303715884105728 : Nat)

/-- sign as a factor -/
def sgn (s : Bool) : ℚ := if s then -1 else 1

/-- the digits of a number with sign `s` and mantissa `m` -/
def dg (s : Bool) (m : Nat) : Nat := (if s then S127 else 0) + (m - S127)

/-- the number with sign `s`, mantissa `m` and exponent field `e` -/
def mk' (s : Bool) (m e : Nat) : F192 := ⟨dg s m, e⟩

theorem mk_digits {s : Bool} {m e : Nat} : (mk' s m e).digits = dg s m := rfl
theorem mk_exp {s : Bool} {m e : Nat} : (mk' s m e).exp = e := rfl
theorem dg_true {m : Nat} : dg true m = S127 + (m - S127) := by
  unfold dg; rw [if_pos rfl]
theorem dg_false {m : Nat} : dg false m = m - S127 := by
  unfold dg; rw [if_neg (by decide), zero_add]

/-- magnitude -/
def mg (m e : Nat) : ℚ := (m : ℚ) * 2 ^ ((e : ℤ) - 2 ^ 48)

/-- normalised mantissa -/
def Nrm (m : Nat) : Prop := S127 ≤ m ∧ m < B128

theorem exists_mk {x : F192} (h : FValid x) : ∃ s m e, Nrm m ∧ e < B64 ∧ x = mk' s m e := by
  obtain ⟨d, e⟩ := x
  obtain ⟨h1, h2⟩ := h
  simp only at h1 h2
  by_cases hd : S127 ≤ d
  · refine ⟨true, S127 + d % S127, e, ⟨by omega, by omega⟩, by omega, ?_⟩
    rw [mk', dg_true, F192.mk.injEq]
    exact ⟨by omega, rfl⟩
  · refine ⟨false, S127 + d % S127, e, ⟨by omega, by omega⟩, by omega, ?_⟩
    rw [mk', dg_false, F192.mk.injEq]
    exact ⟨by omega, rfl⟩

theorem valid_mk {s : Bool} {m e : Nat} (hm : Nrm m) (he : e < B64) : FValid (mk' s m e) := by
  obtain ⟨h1, h2⟩ := hm
  refine ⟨?_, he⟩
  rw [mk_digits]
  cases s
  · rw [dg_false]; omega
  · rw [dg_true]; omega

section fields
variable {s : Bool} {m e : Nat} (h : Nrm m)
include h

theorem digits_div : (mk' s m e).digits / S127 = if s then 1 else 0 := by
  obtain ⟨h1, h2⟩ := h
  rw [mk_digits]
  cases s
  · rw [dg_false, if_neg (by decide)]; omega
  · rw [dg_true, if_pos rfl]; omega

theorem digits_mod : (mk' s m e).digits % S127 = m - S127 := by
  obtain ⟨h1, h2⟩ := h
  rw [mk_digits]
  cases s
  · rw [dg_false]; omega
  · rw [dg_true]; omega

theorem is_neg_mk : is_neg (mk' s m e) = s := by
  have := digits_div (s := s) (e := e) h
  rw [is_neg, show (2 : Nat) ^ 127 = S127 by norm_num, this]
  cases s <;> rfl

theorem sign_le : S127 ≤ (mk' s m e).digits ↔ s = true := by
  obtain ⟨h1, h2⟩ := h
  rw [mk_digits]
  cases s
  · rw [dg_false]; simp only [Bool.false_eq_true, iff_false]; omega
  · rw [dg_true]; simp only [iff_true]; omega

theorem is_zero_mk : is_zero (mk' s m e) = decide (s = false ∧ m = S127 ∧ e = 0) := by
  obtain ⟨h1, h2⟩ := h
  rw [is_zero, mk_digits, mk_exp, Bool.eq_iff_iff]
  simp only [Bool.and_eq_true, beq_iff_eq, decide_eq_true_eq]
  cases s
  · rw [dg_false]; simp only [true_and]; omega
  · rw [dg_true]; simp only [Bool.true_eq_false, false_and, iff_false]; omega

theorem or_mk : (mk' s m e).digits ||| SIGN_MASK = m := by
  have h1 := digits_div (s := s) (e := e) h
  have h2 := digits_mod (s := s) (e := e) h
  obtain ⟨ha, hb⟩ := h
  have a1 := Nat.or_div_two_pow (a := (mk' s m e).digits) (b := SIGN_MASK) (n := 127)
  have a2 := Nat.or_mod_two_pow (a := (mk' s m e).digits) (b := SIGN_MASK) (n := 127)
  rw [show (2 : Nat) ^ 127 = S127 by norm_num] at a1 a2
  rw [h1] at a1
  rw [h2, show SIGN_MASK % S127 = 0 by decide, Nat.or_zero] at a2
  rw [show SIGN_MASK / S127 = 1 by decide] at a1
  have a3 : (if s then 1 else 0) ||| 1 = 1 := by cases s <;> rfl
  rw [a3] at a1
  omega

theorem or_mk' : SIGN_MASK ||| (mk' s m e).digits = m := by rw [Nat.or_comm]; exact or_mk h

theorem low_mk : (mk' s m e).digits &&& LOW_MASK = m - S127 := by
  rw [show LOW_MASK = 2 ^ 127 - 1 by decide, Nat.and_two_pow_sub_one_eq_mod,
    show (2 : Nat) ^ 127 = S127 by norm_num, digits_mod h]

theorem high_mk : (mk' s m e).digits &&& SIGN_MASK = signBit s := by
  have h1 := digits_div (s := s) (e := e) h
  have h2 := digits_mod (s := s) (e := e) h
  have a1 := Nat.and_div_two_pow (a := (mk' s m e).digits) (b := SIGN_MASK) (n := 127)
  have a2 := Nat.and_mod_two_pow (a := (mk' s m e).digits) (b := SIGN_MASK) (n := 127)
  rw [show (2 : Nat) ^ 127 = S127 by norm_num] at a1 a2
  rw [h1] at a1
  rw [h2, show SIGN_MASK % S127 = 0 by decide, Nat.and_zero] at a2
  rw [show SIGN_MASK / S127 = 1 by decide] at a1
  unfold signBit SIGN_MASK
  unfold SIGN_MASK at a1 a2
  cases s
  · simp only [Bool.false_eq_true, if_false] at a1 ⊢
    rw [Nat.zero_and] at a1; omega
  · simp only [if_true] at a1 ⊢
    rw [Nat.and_self] at a1; omega

theorem xor_mk : (mk' s m e).digits ^^^ SIGN_MASK = (mk' (!s) m e).digits := by
  have h1 := digits_div (s := s) (e := e) h
  have h2 := digits_mod (s := s) (e := e) h
  have g1 := digits_div (s := !s) (e := e) h
  have g2 := digits_mod (s := !s) (e := e) h
  have a1 := Nat.xor_div_two_pow (a := (mk' s m e).digits) (b := SIGN_MASK) (n := 127)
  have a2 := Nat.xor_mod_two_pow (a := (mk' s m e).digits) (b := SIGN_MASK) (n := 127)
  rw [show (2 : Nat) ^ 127 = S127 by norm_num] at a1 a2
  rw [h1, show SIGN_MASK / S127 = 1 by decide] at a1
  rw [h2, show SIGN_MASK % S127 = 0 by decide, Nat.xor_zero] at a2
  have a3 : (if s then 1 else 0) ^^^ 1 = if (!s) = true then 1 else 0 := by cases s <;> rfl
  rw [a3] at a1
  omega

/-- assembling a number from mantissa and sign bit -/
theorem pack_mk {d : Nat} (hd : d % S127 = m - S127) : (⟨d &&& LOW_MASK ||| signBit s, e⟩ : F192) = mk' s m e := by
  obtain ⟨ha, hb⟩ := h
  rw [mk', F192.mk.injEq]
  refine ⟨?_, rfl⟩
  rw [show LOW_MASK = 2 ^ 127 - 1 by decide, Nat.and_two_pow_sub_one_eq_mod,
    show (2 : Nat) ^ 127 = S127 by norm_num, hd]
  have := Nat.two_pow_add_eq_or_of_lt (i := 127) (b := m - S127) (by omega) 1
  rw [mul_one, show (2 : Nat) ^ 127 = S127 by norm_num] at this
  unfold signBit SIGN_MASK
  cases s
  · rw [dg_false, if_neg (by decide), Nat.or_zero]
  · rw [dg_true, if_pos rfl, Nat.or_comm, ← this]

theorem fval_mk (h0 : ¬(s = false ∧ m = S127 ∧ e = 0)) : fval (mk' s m e) = sgn s * mg m e := by
  have h1 := digits_mod (s := s) (e := e) h
  have h2 := sign_le (s := s) (e := e) h
  obtain ⟨ha, hb⟩ := h
  have hz : ¬((mk' s m e).digits = 0 ∧ (mk' s m e).exp = 0) := by
    rintro ⟨z1, z2⟩
    rw [z1] at h1 h2
    rw [mk_exp] at z2
    refine h0 ⟨?_, by omega, z2⟩
    cases s
    · rfl
    · have := h2.2 rfl; omega
  rw [fval, if_neg hz, show (2 : Nat) ^ 127 = S127 by norm_num, h1, mk_exp, mg]
  rw [show S127 + (m - S127) = m by omega, mul_assoc]
  cases s
  · rw [if_neg (by rw [h2]; decide), sgn, if_neg (by decide)]
  · rw [if_pos (h2.2 rfl), sgn, if_pos rfl]

end fields

theorem nrm_S : Nrm S127 := ⟨le_refl _, by norm_num⟩

theorem mk_zero : mk' false S127 0 = ZERO := rfl

theorem fval_zero : fval ZERO = 0 := rfl

theorem mg_pos {m e : Nat} (h : Nrm m) : 0 < mg m e := by
  have : (0 : ℚ) < m := by
    have := h.1
    exact_mod_cast (by omega : 0 < m)
  exact mul_pos this (zpow_pos (by norm_num) _)

theorem mg_lt_of_exp {m₁ m₂ e₁ e₂ : Nat} (h1 : Nrm m₁) (h2 : Nrm m₂) (h : e₁ < e₂) : mg m₁ e₁ < mg m₂ e₂ := by
  unfold mg
  have hz : (0 : ℚ) < 2 ^ ((e₁ : ℤ) - 2 ^ 48) := zpow_pos (by norm_num) _
  have a1 : (m₁ : ℚ) < 2 * S127 := by
    have := h1.2
    exact_mod_cast (by omega : m₁ < 2 * S127)
  have a2 : ((S127 : Nat) : ℚ) ≤ m₂ := by exact_mod_cast h2.1
  have a3 : (2 : ℚ) ^ ((e₁ : ℤ) - 2 ^ 48) * 2 ≤ 2 ^ ((e₂ : ℤ) - 2 ^ 48) := by
    rw [← zpow_add_one₀ (by norm_num)]
    exact zpow_le_zpow_right₀ (by norm_num) (by omega)
  calc (m₁ : ℚ) * 2 ^ ((e₁ : ℤ) - 2 ^ 48) < (2 * S127) * 2 ^ ((e₁ : ℤ) - 2 ^ 48) :=
        mul_lt_mul_of_pos_right a1 hz
    _ = S127 * (2 ^ ((e₁ : ℤ) - 2 ^ 48) * 2) := by ring
    _ ≤ m₂ * 2 ^ ((e₂ : ℤ) - 2 ^ 48) :=
        mul_le_mul a2 a3 (by positivity) (by positivity)

theorem mg_lt_of_mant {m₁ m₂ e : Nat} (h : m₁ < m₂) : mg m₁ e < mg m₂ e := by
  unfold mg
  exact mul_lt_mul_of_pos_right (by exact_mod_cast h) (zpow_pos (by norm_num) _)

theorem mg_lt_iff {m₁ m₂ e₁ e₂ : Nat} (h1 : Nrm m₁) (h2 : Nrm m₂) :
    mg m₁ e₁ < mg m₂ e₂ ↔ e₁ < e₂ ∨ e₁ = e₂ ∧ m₁ < m₂ := by
  constructor
  · intro h
    rcases lt_trichotomy e₁ e₂ with c | c | c
    · exact Or.inl c
    · subst c
      rcases Nat.lt_or_ge m₁ m₂ with c | c
      · exact Or.inr ⟨rfl, c⟩
      · rcases Nat.lt_or_ge m₂ m₁ with c' | c'
        · exact absurd (mg_lt_of_mant (e := e₁) c') (not_lt.2 h.le)
        · obtain rfl : m₁ = m₂ := by omega
          exact absurd h (lt_irrefl _)
    · exact absurd (mg_lt_of_exp h2 h1 c) (not_lt.2 h.le)
  · rintro (c | ⟨rfl, c⟩)
    · exact mg_lt_of_exp h1 h2 c
    · exact mg_lt_of_mant c

/-- value of any number, with the exception of zero made explicit -/
theorem fval_cases {s : Bool} {m e : Nat} (h : Nrm m) :
    (s = false ∧ m = S127 ∧ e = 0 ∧ fval (mk' s m e) = 0) ∨
    (¬(s = false ∧ m = S127 ∧ e = 0) ∧ fval (mk' s m e) = sgn s * mg m e) := by
  by_cases h0 : s = false ∧ m = S127 ∧ e = 0
  · obtain ⟨rfl, rfl, rfl⟩ := h0
    exact Or.inl ⟨rfl, rfl, rfl, rfl⟩
  · exact Or.inr ⟨h0, fval_mk h h0⟩

theorem sgn_false : sgn false = 1 := rfl
theorem sgn_true : sgn true = -1 := rfl

theorem fval_lt_pos {m₁ m₂ e₁ e₂ : Nat} (h1 : Nrm m₁) (h2 : Nrm m₂) :
    fval (mk' false m₁ e₁) < fval (mk' false m₂ e₂) ↔ e₁ < e₂ ∨ e₁ = e₂ ∧ m₁ < m₂ := by
  have p1 := mg_pos (e := e₁) h1
  have p2 := mg_pos (e := e₂) h2
  have := h1.1
  have := h2.1
  rcases fval_cases (s := false) (e := e₁) h1 with ⟨-, a2, a3, a4⟩ | ⟨a1, a2⟩ <;>
  rcases fval_cases (s := false) (e := e₂) h2 with ⟨-, b2, b3, b4⟩ | ⟨b1, b2⟩
  · rw [a4, b4]
    simp only [lt_irrefl, false_iff]; omega
  · rw [a4, b2, sgn_false, one_mul]
    simp only [p2, true_iff]
    simp only [true_and, not_and] at b1
    omega
  · rw [a2, b4, sgn_false, one_mul]
    constructor
    · intro h; linarith
    · omega
  · rw [a2, b2, sgn_false, one_mul, one_mul, mg_lt_iff h1 h2]

theorem fval_neg {m e : Nat} (h : Nrm m) : fval (mk' true m e) = -mg m e := by
  rw [fval_mk h (by simp), sgn_true]; ring

theorem fval_nonneg {m e : Nat} (h : Nrm m) : 0 ≤ fval (mk' false m e) := by
  rcases fval_cases (s := false) (e := e) h with ⟨-, a2, a3, a4⟩ | ⟨a1, a2⟩
  · rw [a4]
  · rw [a2, sgn_false, one_mul]; exact (mg_pos h).le

theorem fval_lt_neg {m₁ m₂ e₁ e₂ : Nat} (h1 : Nrm m₁) (h2 : Nrm m₂) :
    fval (mk' true m₁ e₁) < fval (mk' true m₂ e₂) ↔ e₂ < e₁ ∨ e₁ = e₂ ∧ m₂ < m₁ := by
  rw [fval_neg h1, fval_neg h2, neg_lt_neg_iff, mg_lt_iff h2 h1]
  constructor
  · rintro (c | ⟨rfl, c⟩)
    · exact Or.inl c
    · exact Or.inr ⟨rfl, c⟩
  · rintro (c | ⟨rfl, c⟩)
    · exact Or.inl c
    · exact Or.inr ⟨rfl, c⟩

theorem fval_inj {x y : F192} (hx : FValid x) (hy : FValid y) (h : fval x = fval y) : x = y := by
  obtain ⟨s₁, m₁, e₁, h1, -, rfl⟩ := exists_mk hx
  obtain ⟨s₂, m₂, e₂, h2, -, rfl⟩ := exists_mk hy
  have key : ∀ {P Q : Prop}, ¬P → ¬Q → (P ↔ e₁ < e₂ ∨ e₁ = e₂ ∧ m₁ < m₂) →
      (Q ↔ e₂ < e₁ ∨ e₂ = e₁ ∧ m₂ < m₁) → e₁ = e₂ ∧ m₁ = m₂ := by
    intro P Q hp hq a b
    rw [a] at hp; rw [b] at hq
    omega
  cases s₁ <;> cases s₂
  · obtain ⟨rfl, rfl⟩ := key (by rw [h]; exact lt_irrefl _) (by rw [h]; exact lt_irrefl _) (fval_lt_pos h1 h2) (fval_lt_pos h2 h1)
    rfl
  · have a := fval_nonneg (e := e₁) h1
    have b := mg_pos (e := e₂) h2
    rw [h, fval_neg h2] at a
    linarith
  · have a := fval_nonneg (e := e₂) h2
    have b := mg_pos (e := e₁) h1
    rw [← h, fval_neg h1] at a
    linarith
  · have t1 := fval_lt_neg h1 h2 (e₁ := e₁) (e₂ := e₂)
    have t2 := fval_lt_neg h2 h1 (e₁ := e₂) (e₂ := e₁)
    rw [h] at t1 t2
    simp only [lt_irrefl, false_iff] at t1 t2
    obtain ⟨rfl, rfl⟩ : e₁ = e₂ ∧ m₁ = m₂ := by omega
    rfl

theorem cmp_raw {x y : F192} {a b : Bool} (ha : is_neg x = a) (hb : is_neg y = b) : cmp x y = .lt ↔
    (a = true ∧ b = false) ∨ (a = false ∧ b = false ∧ (x.exp < y.exp ∨ x.exp = y.exp ∧ x.digits < y.digits)) ∨
    (a = true ∧ b = true ∧ (y.exp < x.exp ∨ x.exp = y.exp ∧ y.digits < x.digits)) := by
  rw [cmp, ha, hb]
  generalize x.exp = e₁
  generalize y.exp = e₂
  generalize x.digits = d₁
  generalize y.digits = d₂
  have key : ∀ n : Bool, (match compare e₁ e₂ with
      | .eq => flip n (compare d₁ d₂)
      | .gt => if n then .lt else .gt
      | .lt => if n then .gt else .lt : Ordering) = .lt ↔
      (n = false ∧ (e₁ < e₂ ∨ e₁ = e₂ ∧ d₁ < d₂)) ∨ (n = true ∧ (e₂ < e₁ ∨ e₁ = e₂ ∧ d₂ < d₁)) := by
    intro n
    rcases lt_trichotomy e₁ e₂ with c | c | c
    · rw [Nat.compare_eq_lt.2 c]; cases n <;> simp <;> omega
    · subst c
      rw [Nat.compare_eq_eq.2 rfl]
      rcases lt_trichotomy d₁ d₂ with d | d | d
      · rw [Nat.compare_eq_lt.2 d]; cases n <;> simp [flip] <;> omega
      · rw [Nat.compare_eq_eq.2 d]; cases n <;> simp [flip] <;> omega
      · rw [Nat.compare_eq_gt.2 d]; cases n <;> simp [flip] <;> omega
    · rw [Nat.compare_eq_gt.2 c]; cases n <;> simp <;> omega
  cases a <;> cases b
  · rw [if_neg (by decide)]; exact (key false).trans (by simp)
  · simp
  · simp
  · rw [if_neg (by decide)]; exact (key true).trans (by simp)

theorem cmp_lt {x y : F192} (hx : FValid x) (hy : FValid y) : cmp x y = .lt ↔ fval x < fval y := by
  obtain ⟨s₁, m₁, e₁, h1, -, rfl⟩ := exists_mk hx
  obtain ⟨s₂, m₂, e₂, h2, -, rfl⟩ := exists_mk hy
  have q1 := h1.1
  have q2 := h2.1
  refine (cmp_raw (is_neg_mk h1) (is_neg_mk h2)).trans ?_
  rw [mk_exp, mk_exp, mk_digits, mk_digits]
  have t1 := dg_true (m := m₁)
  have t2 := dg_true (m := m₂)
  have f1 := dg_false (m := m₁)
  have f2 := dg_false (m := m₂)
  cases s₁ <;> cases s₂
  · rw [fval_lt_pos h1 h2]
    generalize dg false m₁ = d₁ at f1 ⊢
    generalize dg false m₂ = d₂ at f2 ⊢
    simp only [Bool.false_eq_true, false_and, false_or, or_false, true_and]
    omega
  · have a := fval_nonneg (e := e₁) h1
    have b := mg_pos (e := e₂) h2
    rw [fval_neg h2]
    simp only [Bool.false_eq_true, Bool.true_eq_false, false_and, and_false, or_false, false_iff, not_lt]
    linarith
  · have a := fval_nonneg (e := e₂) h2
    have b := mg_pos (e := e₁) h1
    rw [fval_neg h1]
    simp only [true_and, true_or, true_iff]
    linarith
  · rw [fval_lt_neg h1 h2]
    generalize dg true m₁ = d₁ at t1 ⊢
    generalize dg true m₂ = d₂ at t2 ⊢
    simp only [Bool.true_eq_false, false_and, and_false, false_or, true_and]
    omega

theorem flip_swap (b : Bool) (o : Ordering) : (flip b o).swap = flip b o.swap := by
  cases b <;> cases o <;> rfl

theorem cmp_swap (x y : F192) : (cmp x y).swap = cmp y x := by
  rw [cmp, cmp]
  by_cases h : is_neg x = is_neg y
  · rw [h]
    simp only [bne_self_eq_false, Bool.false_eq_true, if_false]
    rw [show compare y.exp x.exp = (compare x.exp y.exp).swap from (Nat.compare_swap _ _).symm]
    rw [show compare y.digits x.digits = (compare x.digits y.digits).swap from (Nat.compare_swap _ _).symm]
    cases compare x.exp y.exp
    · simp only [Ordering.swap]; cases is_neg y <;> rfl
    · simp only [Ordering.swap]; exact flip_swap _ _
    · simp only [Ordering.swap]; cases is_neg y <;> rfl
  · rw [if_pos (by simpa using h), if_pos (c := (is_neg y != is_neg x) = true) (by rw [bne_iff_ne]; exact Ne.symm h)]
    revert h
    generalize is_neg x = a
    generalize is_neg y = b
    cases a <;> cases b <;> simp

theorem cmp_gt {x y : F192} (hx : FValid x) (hy : FValid y) : cmp x y = .gt ↔ fval y < fval x := by
  rw [← cmp_lt hy hx, ← cmp_swap y x]
  cases cmp y x <;> simp [Ordering.swap]

theorem cmp_c {x y : F192} (hx : FValid x) (hy : FValid y) : cmp x y = compare (fval x) (fval y) := by
  have h1 := cmp_lt hx hy
  have h2 := cmp_gt hx hy
  rcases lt_trichotomy (fval x) (fval y) with h | h | h
  · rw [h1.2 h, compare_lt_iff_lt.2 h]
  · rw [compare_eq_iff_eq.2 h]
    rw [h] at h1 h2
    cases hc : cmp x y
    · exact absurd (h1.1 hc) (lt_irrefl _)
    · rfl
    · exact absurd (h2.1 hc) (lt_irrefl _)
  · rw [h2.2 h, compare_gt_iff_gt.2 h]

theorem lt_c {x y : F192} (hx : FValid x) (hy : FValid y) : lt x y = decide (fval x < fval y) := by
  rw [lt, Bool.eq_iff_iff, beq_iff_eq, cmp_lt hx hy, decide_eq_true_eq]
theorem gt_c {x y : F192} (hx : FValid x) (hy : FValid y) : gt x y = decide (fval y < fval x) := by
  rw [gt, Bool.eq_iff_iff, beq_iff_eq, cmp_gt hx hy, decide_eq_true_eq]
theorem le_c {x y : F192} (hx : FValid x) (hy : FValid y) : le x y = decide (fval x ≤ fval y) := by
  rw [le, Bool.eq_iff_iff, bne_iff_ne, Ne, cmp_gt hx hy, decide_eq_true_eq, not_lt]
theorem ge_c {x y : F192} (hx : FValid x) (hy : FValid y) : ge x y = decide (fval y ≤ fval x) := by
  rw [ge, Bool.eq_iff_iff, bne_iff_ne, Ne, cmp_lt hx hy, decide_eq_true_eq, not_lt]

end F192
end Hmath
