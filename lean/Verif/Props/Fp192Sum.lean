import Verif.Props.Fp192High

/-!
# C41: sums and differences of numbers with arbitrary exponents
-/

namespace Hmath
namespace Props

open F192 (mk' mg ulp sgn Nrm Z ZERO ONE)

/-- the value of a number after the conversion to a rational, which removes a multiple of `2^32` from the exponent -/
def seen (x : F192) : ℚ := fval x * 2 ^ ((signedExp x).tmod (2 ^ 32) - ((x.exp : ℤ) - 2 ^ 48))

/-- the conversion to a rational panics -/
def Hole (x : F192) : Prop := 2 ^ 63 ≤ x.exp ∧ x.exp ≤ 2 ^ 63 + 2 ^ 48

private theorem seen_c {x : F192} (hx : FValid x) (h0 : fval x ≠ 0) : ∃ s m R, F192.is_neg x = s ∧ Nrm m ∧ -2 ^ 32 < R ∧ R < 2 ^ 32 ∧
    seen x = sgn s * (m * 2 ^ (R : ℤ)) := by
  obtain ⟨s, m, e, hm, he, hz, rfl, hv⟩ := F192.mk_of_not_zero hx h0
  have h6 := Int.natAbs_tmod (signedExp (mk' s m e)) (2 ^ 32)
  have h7 : (signedExp (mk' s m e)).natAbs % 2 ^ 32 < 2 ^ 32 := Nat.mod_lt _ (by norm_num)
  have h8 : ((signedExp (mk' s m e)).tmod (2 ^ 32)).natAbs < 2 ^ 32 := h6 ▸ h7
  refine ⟨s, m, (signedExp (mk' s m e)).tmod (2 ^ 32), F192.is_neg_mk hm, hm, ?_, ?_, ?_⟩
  · generalize (signedExp (mk' s m e)).tmod (2 ^ 32) = R at *
    norm_num at h8 ⊢
    omega
  · generalize (signedExp (mk' s m e)).tmod (2 ^ 32) = R at *
    norm_num at h8 ⊢
    omega
  · rw [seen, hv, F192.mk_exp, F192.mg, mul_assoc, mul_assoc, ← zpow_add₀ (by norm_num), add_sub_cancel]

/-- numbers below `2^32` are seen as they are -/
theorem seen_inRange {x : F192} (h : InRange x) : seen x = fval x := by
  rcases h with rfl | ⟨h1, h2⟩
  · rw [seen, F192.fval_zero, zero_mul]
  · have : (signedExp x).tmod (2 ^ 32) = (x.exp : ℤ) - 2 ^ 48 := by
      unfold signedExp
      norm_num at h1 h2
      rw [if_pos (by omega)]
      by_cases hc : (2 : ℤ) ^ 48 ≤ x.exp
      · rw [Int.tmod_eq_emod_of_nonneg (by omega), Int.emod_eq_of_lt (by omega) (by norm_num; norm_num at hc; omega)]
      · obtain ⟨n, hn⟩ : ∃ n : ℤ, (x.exp : ℤ) - 2 ^ 48 = -n := ⟨_, (neg_neg _).symm⟩
        rw [hn, Int.neg_tmod, Int.tmod_eq_emod_of_nonneg (by omega), Int.emod_eq_of_lt (by omega) (by norm_num; norm_num at hn; omega)]
    rw [seen, this, sub_self, zpow_zero, mul_one]

/-- the magnitude of a difference other than zero -/
private theorem diff_bounds {s : Bool} {m₁ m₂ : Nat} {R₁ R₂ : ℤ} (h1 : Nrm m₁) (h2 : Nrm m₂) (a1 : -2 ^ 32 < R₁) (a2 : R₁ < 2 ^ 32)
    (b1 : -2 ^ 32 < R₂) (b2 : R₂ < 2 ^ 32) (hne : sgn s * (m₁ * 2 ^ R₁) - sgn s * (m₂ * 2 ^ R₂) ≠ 0) :
    (2 : ℚ) ^ (-2 ^ 32 : ℤ) ≤ |sgn s * (m₁ * 2 ^ R₁) - sgn s * (m₂ * 2 ^ R₂)| ∧
    |sgn s * (m₁ * 2 ^ R₁) - sgn s * (m₂ * 2 ^ R₂)| < 2 ^ (2 ^ 32 + 128 : ℤ) := by
  rw [← mul_sub, abs_mul, F192.abs_sgn, one_mul]
  have hne' : (m₁ * 2 ^ R₁ - m₂ * 2 ^ R₂ : ℚ) ≠ 0 := fun hc => hne (by rw [← mul_sub, hc, mul_zero])
  constructor
  · obtain ⟨k₁, hk1⟩ : ∃ k : Nat, R₁ = -2 ^ 32 + k := ⟨(R₁ + 2 ^ 32).toNat, by omega⟩
    obtain ⟨k₂, hk2⟩ : ∃ k : Nat, R₂ = -2 ^ 32 + k := ⟨(R₂ + 2 ^ 32).toNat, by omega⟩
    have hpos : (0 : ℚ) < 2 ^ (-2 ^ 32 : ℤ) := zpow_pos (by norm_num) _
    obtain ⟨j, hj⟩ : ∃ j : ℤ, j = -2 ^ 32 := ⟨_, rfl⟩
    rw [← hj] at hk1 hk2 hpos ⊢
    have he : (m₁ * 2 ^ R₁ - m₂ * 2 ^ R₂ : ℚ) = ((m₁ * 2 ^ k₁ - m₂ * 2 ^ k₂ : ℤ) : ℚ) * 2 ^ j := by
      rw [hk1, hk2, zpow_add₀ (by norm_num), zpow_add₀ (by norm_num), zpow_natCast, zpow_natCast]
      push_cast
      ring
    rw [he] at hne' ⊢
    rw [abs_mul, abs_of_pos hpos]
    have : (1 : ℤ) ≤ |(m₁ * 2 ^ k₁ - m₂ * 2 ^ k₂ : ℤ)| := Int.one_le_abs (fun hc => hne' (by rw [hc, Int.cast_zero, zero_mul]))
    have : (1 : ℚ) ≤ |((m₁ * 2 ^ k₁ - m₂ * 2 ^ k₂ : ℤ) : ℚ)| := by exact_mod_cast this
    exact le_mul_of_one_le_left hpos.le this
  · have up : ∀ {m : Nat} {R : ℤ}, Nrm m → R < 2 ^ 32 → (m * 2 ^ R : ℚ) < 2 ^ (2 ^ 32 + 128 : ℤ) := by
      intro m R hm hR
      have h3 : (m : ℚ) < (340282366920938463463374607431768211456 : Nat) := Nat.cast_lt.2 hm.2
      have h4 : ((340282366920938463463374607431768211456 : Nat) : ℚ) = 2 ^ (128 : ℤ) := by norm_num
      rw [h4] at h3
      obtain ⟨j, hj⟩ : ∃ j : ℤ, j = 2 ^ 32 := ⟨_, rfl⟩
      rw [← hj] at hR ⊢
      rw [zpow_add₀ (by norm_num), mul_comm]
      have hp : (0 : ℚ) < 2 ^ R := zpow_pos (by norm_num) _
      have : (2 : ℚ) ^ R ≤ 2 ^ j := zpow_le_zpow_right₀ (by norm_num) hR.le
      exact lt_of_lt_of_le (mul_lt_mul_of_pos_left h3 hp) (mul_le_mul_of_nonneg_right this (zpow_pos (by norm_num) _).le)
    have p1 : (0 : ℚ) ≤ m₁ * 2 ^ R₁ := mul_nonneg (Nat.cast_nonneg _) (zpow_pos (by norm_num) _).le
    have p2 : (0 : ℚ) ≤ m₂ * 2 ^ R₂ := mul_nonneg (Nat.cast_nonneg _) (zpow_pos (by norm_num) _).le
    have u1 := up h1 a2
    have u2 := up h2 b2
    generalize (2 : ℚ) ^ (2 ^ 32 + 128 : ℤ) = U at *
    rw [abs_lt]
    constructor <;> linarith

/-- What the difference `d` of the numbers is made into: `ZERO` if it is zero, the nearest number if rounding does not carry, and otherwise minus
one half of the power of two above. -/
def RoundsTo (m : M F192) (d : ℚ) : Prop :=
  (d = 0 → m = pure ZERO) ∧
  (NoCarry d → ∃ z, m = pure z ∧ Nearest z d ∧ Close z d (1 / 2 ^ 128)) ∧
  ∀ k : ℤ, (2 ^ 128 - 1 / 2) * 2 ^ k ≤ |d| → |d| < 2 ^ 128 * 2 ^ k → ∃ z, m = pure z ∧ FValid z ∧ fval z = -2 ^ 127 * 2 ^ k

private theorem rounds_small {d : ℚ} (h1 : d ≠ 0 → (2 : ℚ) ^ (-2 ^ 32 : ℤ) ≤ |d|) (h2 : d ≠ 0 → |d| < 2 ^ (2 ^ 32 + 128 : ℤ)) :
    RoundsTo (F192.from_ratio (ofRat d)) d := by
  have h0 : d = 0 → F192.from_ratio (ofRat d) = pure ZERO := fun h =>
    C42_from_ratio_zero (rvalid_ofRat _) (by rw [rval_ofRat, h])
  refine ⟨h0, fun hc => ?_, fun k k1 k2 => ?_⟩
  · by_cases hd : d = 0
    · refine ⟨ZERO, h0 hd, ⟨by decide, by rw [F192.fval_zero, hd], fun w _ => ?_⟩, by decide, by rw [F192.fval_zero, hd], ?_⟩
      · rw [F192.fval_zero, hd, sub_zero, abs_zero]
        exact abs_nonneg _
      · rw [F192.fval_zero, hd, sub_zero, abs_zero, mul_zero]
    · have g := C42_from_ratio_partial (r := ofRat d) (rvalid_ofRat _) (by
        rw [rval_ofRat]
        exact le_trans (zpow_le_zpow_right₀ (by norm_num) (by norm_num)) (h1 hd)) (by
        rw [rval_ofRat]
        exact lt_of_lt_of_le (h2 hd) (zpow_le_zpow_right₀ (by norm_num) (by norm_num))) (by rwa [rval_ofRat])
      rwa [rval_ofRat] at g
  · have hd : d ≠ 0 := by
      rintro rfl
      have : (0 : ℚ) < 2 ^ k := zpow_pos (by norm_num) _
      rw [abs_zero] at k1
      norm_num at k1
      linarith
    have l1 : (-2 ^ 32 : ℤ) < 128 + k := by
      have := lt_of_le_of_lt (h1 hd) k2
      rw [show (2 : ℚ) ^ 128 = 2 ^ (128 : ℤ) by norm_num, ← zpow_add₀ (by norm_num)] at this
      exact (zpow_lt_zpow_iff_right₀ (by norm_num)).1 this
    have l2 : 127 + k < 2 ^ 32 + 128 := by
      have h127 : (2 : ℚ) ^ (127 + k) ≤ (2 ^ 128 - 1 / 2) * 2 ^ k := by
        rw [zpow_add₀ (by norm_num)]
        exact mul_le_mul_of_nonneg_right (by norm_num) (zpow_pos (by norm_num) _).le
      have := lt_of_le_of_lt (h127.trans k1) (h2 hd)
      exact (zpow_lt_zpow_iff_right₀ (by norm_num)).1 this
    norm_num at l1 l2
    exact C42_from_ratio_carry (rvalid_ofRat _) (by norm_num; omega) (by norm_num; omega) (by rwa [rval_ofRat]) (by rwa [rval_ofRat])

/-- The difference of two numbers of the same sign. -/
theorem C41_sub_all {x y : F192} (hx : FValid x) (hy : FValid y) (h : 0 < fval x * fval y) :
    (Hole x ∨ Hole y → Panics (F192.sub x y)) ∧ (¬Hole x → ¬Hole y → RoundsTo (F192.sub x y) (seen x - seen y)) := by
  have zx := left_ne_zero_of_mul h.ne'
  have zy := right_ne_zero_of_mul h.ne'
  have hs : F192.is_neg x = F192.is_neg y := by
    rw [F192.is_neg_c hx, F192.is_neg_c hy]
    rcases pos_and_pos_or_neg_and_neg_of_mul_pos h with ⟨a, b⟩ | ⟨a, b⟩
    · rw [decide_eq_false (not_lt.2 a.le), decide_eq_false (not_lt.2 b.le)]
    · rw [decide_eq_true a, decide_eq_true b]
  have e : F192.sub x y = (do
      let a ← F192.to_ratio x
      let b ← F192.to_ratio y
      let d ← Ratio.sub a b
      F192.from_ratio d) := by
    rw [F192.sub, hs, if_neg (by simp), F192.is_zero_eq, if_neg (by simpa using fun hc => zx ((F192.fval_eq_zero hx).2 hc)), F192.is_zero_eq,
      if_neg (by simpa using fun hc => zy ((F192.fval_eq_zero hy).2 hc))]
  obtain ⟨p1, q1⟩ := C42_to_ratio_all hx zx
  obtain ⟨p2, q2⟩ := C42_to_ratio_all hy zy
  rw [e]
  refine ⟨fun hh => ?_, fun hX hY => ?_⟩
  · by_cases hX : Hole x
    · exact F192.panics_bind (p1 hX) _
    · obtain ⟨r, r1, -⟩ := q1 hX
      rw [r1, pure_bind]
      exact F192.panics_bind (p2 (hh.resolve_left hX)) _
  · obtain ⟨a, a1, a2, a3⟩ := q1 hX
    obtain ⟨b, b1, b2, b3⟩ := q2 hY
    rw [a1, b1, pure_bind, pure_bind, a2.eq_ofRat, b2.eq_ofRat, Ratio.sub_c, pure_bind]
    change rval a = seen x at a3
    change rval b = seen y at b3
    rw [a3, b3]
    obtain ⟨s, m, R, s1, s2, s3, s4, s5⟩ := seen_c hx zx
    obtain ⟨s', m', R', t1, t2, t3, t4, t5⟩ := seen_c hy zy
    obtain rfl : s = s' := by rw [← s1, ← t1, hs]
    rw [s5, t5]
    exact rounds_small (fun hne => (diff_bounds s2 t2 s3 s4 t3 t4 hne).1) (fun hne => (diff_bounds s2 t2 s3 s4 t3 t4 hne).2)

/-- Two numbers with the same digits whose exponents differ by `2^32` have the difference zero. -/
theorem C41_sub_range_counterexample {d e t : Nat} (ht : t = 2 ^ 32) (hd : d < 2 ^ 127) (h1 : 2 ^ 48 ≤ e) (h2 : e + t < 2 ^ 63) :
    F192.sub ⟨d, e + t⟩ ⟨d, e⟩ = pure ZERO ∧ fval ⟨d, e + t⟩ = fval ⟨d, e⟩ * 2 ^ t ∧ 0 < fval ⟨d, e⟩ := by
  norm_num at hd h1 h2 ht
  obtain ⟨m, hm⟩ : ∃ m, m = 170141183460469231731687303715884105728 + d := ⟨_, rfl⟩
  have hn : Nrm m := ⟨by omega, by omega⟩
  have hmk : ∀ e, (⟨d, e⟩ : F192) = mk' false m e := by
    intro e
    unfold F192.mk' F192.dg
    rw [if_neg (by decide), hm, Nat.add_sub_cancel_left, Nat.zero_add]
  have hv : ∀ e, 0 < e → fval (mk' false m e) = mg m e := fun e he => by
    rw [F192.fval_mk hn (F192.nz_exp he), F192.sgn_false, one_mul]
  rw [hmk, hmk, hv _ (by omega), hv _ (by omega)]
  have p := F192.mg_pos (e := e) hn
  have hadd := F192.mg_add (m := m) (e := e) (k := t)
  refine ⟨?_, hadd, p⟩
  have p2 := F192.mg_pos (e := e + t) hn
  refine ((C41_sub_all (F192.valid_mk hn (by omega)) (F192.valid_mk hn (by omega)) (by
    rw [hv _ (by omega), hv _ (by omega)]; exact mul_pos p2 p)).2 ?_ ?_).1 ?_
  · rw [Hole, F192.mk_exp]
    omega
  · rw [Hole, F192.mk_exp]
    omega
  · rw [seen, seen, hv _ (by omega), hv _ (by omega), F192.mg, F192.mg, mul_assoc, mul_assoc, ← zpow_add₀ (by norm_num), ← zpow_add₀ (by norm_num),
      F192.mk_exp, F192.mk_exp, add_sub_cancel, add_sub_cancel]
    have : (signedExp (mk' false m (e + t))).tmod (2 ^ 32) = (signedExp (mk' false m e)).tmod (2 ^ 32) := by
      rw [signedExp, signedExp, F192.mk_exp, F192.mk_exp, if_pos (by omega), if_pos (by omega), Int.tmod_eq_emod_of_nonneg (by omega),
        Int.tmod_eq_emod_of_nonneg (by omega)]
      omega
    rw [this, sub_self]

/-- `2^(127 + 2^32) - 2^127` -/
example : F192.sub ⟨0, 2 ^ 48 + 2 ^ 32⟩ ⟨0, 2 ^ 48⟩ = pure ZERO :=
  (C41_sub_range_counterexample (d := 0) (e := 2 ^ 48) rfl (by norm_num) (by norm_num) (by norm_num)).1

private theorem pos_of {x : F192} (hx : FValid x) (hn : F192.is_neg x = false) (h0 : x ≠ ZERO) : 0 < fval x := by
  rw [F192.is_neg_c hx, decide_eq_false_iff_not, not_lt] at hn
  exact lt_of_le_of_ne hn fun hc => h0 ((F192.fval_eq_zero hx).1 hc.symm)

/-- `MAX - MAX` is zero, and `2^(2^63) - MAX` panics. -/
example : F192.sub F192.MAX F192.MAX = pure ZERO ∧ Panics (F192.sub ⟨0, 2 ^ 63 + 2 ^ 47⟩ F192.MAX) := by
  have h1 := pos_of (x := F192.MAX) (by decide) (by decide) (by decide)
  have h2 := pos_of (x := ⟨0, 2 ^ 63 + 2 ^ 47⟩) (by decide) (by decide) (by decide)
  refine ⟨((C41_sub_all (by decide) (by decide) (mul_pos h1 h1)).2 ?_ ?_).1 (sub_self _), (C41_sub_all (by decide) (by decide) (mul_pos h2 h1)).1 (Or.inl ?_)⟩ <;>
    unfold Hole <;> decide

private theorem seen_neg {x : F192} (hx : FValid x) (t : x ≠ negTiny) : seen (F192.neg x) = -seen x ∧ FValid (F192.neg x) ∧ fval (F192.neg x) = -fval x ∧
    (F192.neg x).exp = x.exp := by
  obtain ⟨-, -, h1, h2, -⟩ := C59_sign_partial hx t
  have he : (F192.neg x).exp = x.exp := by
    by_cases hz : x = ZERO
    · rw [hz, F192.neg_zero]
    · rw [F192.neg, F192.is_zero_eq, if_neg (by simpa using hz)]
  refine ⟨?_, h1, h2, he⟩
  rw [seen, seen, signedExp, signedExp, he, h2, neg_mul]

/-- The sum of two numbers of different signs is computed as the difference of two numbers of the same sign. -/
theorem C41_add_all {x y : F192} (hx : FValid x) (hy : FValid y) (tx : x ≠ negTiny) (ty : y ≠ negTiny) (h : fval x * fval y < 0) :
    (Hole x ∨ Hole y → Panics (F192.add x y)) ∧ (¬Hole x → ¬Hole y → RoundsTo (F192.add x y) (seen x + seen y)) := by
  obtain ⟨a1, a2, a3, a4⟩ := seen_neg hx tx
  obtain ⟨b1, b2, b3, b4⟩ := seen_neg hy ty
  rcases mul_neg_iff.1 h with ⟨p, q⟩ | ⟨p, q⟩
  · have e : F192.add x y = F192.sub x (F192.neg y) := by
      rw [F192.add, F192.is_neg_c hx, F192.is_neg_c hy, decide_eq_false (not_lt.2 p.le), decide_eq_true q, if_pos (by decide), if_neg (by decide)]
    have := C41_sub_all hx b2 (by rw [b3]; nlinarith)
    rw [e, show seen x + seen y = seen x - seen (F192.neg y) by rw [b1]; ring]
    rw [show Hole y = Hole (F192.neg y) by rw [Hole, Hole, b4]]
    exact this
  · have e : F192.add x y = F192.sub y (F192.neg x) := by
      rw [F192.add, F192.is_neg_c hx, F192.is_neg_c hy, decide_eq_true p, decide_eq_false (not_lt.2 q.le), if_pos (by decide), if_pos rfl]
    have := C41_sub_all hy a2 (by rw [a3]; nlinarith)
    rw [e, show seen x + seen y = seen y - seen (F192.neg x) by rw [a1]; ring]
    rw [show Hole x = Hole (F192.neg x) by rw [Hole, Hole, a4]]
    exact ⟨fun hh => this.1 hh.symm, fun h1 h2 => this.2 h2 h1⟩

/-- `MAX + MIN` is zero, and `2^(2^63) + MIN` panics. -/
example : F192.add F192.MAX F192.MIN = pure ZERO ∧ Panics (F192.add ⟨0, 2 ^ 63 + 2 ^ 47⟩ F192.MIN) := by
  have h1 := pos_of (x := F192.MAX) (by decide) (by decide) (by decide)
  have h2 := pos_of (x := ⟨0, 2 ^ 63 + 2 ^ 47⟩) (by decide) (by decide) (by decide)
  have h3 : F192.MIN = F192.neg F192.MAX := by decide
  obtain ⟨n1, n2, n3, n4⟩ := seen_neg (x := F192.MAX) (by decide) (by decide)
  rw [h3]
  refine ⟨((C41_add_all (by decide) n2 (by decide) (by decide) (by rw [n3]; nlinarith)).2 ?_ ?_).1 (by rw [n1]; exact add_neg_cancel _),
    (C41_add_all (by decide) n2 (by decide) (by decide) (by rw [n3]; nlinarith)).1 (Or.inl ?_)⟩
  · unfold Hole; decide
  · rw [Hole, n4]; decide
  · unfold Hole; decide

private theorem same_sum {s : Bool} {m₁ e₁ m₂ e₂ : Nat} (h1 : Nrm m₁) (h2 : Nrm m₂) (b1 : e₁ < B64) (b2 : e₂ < B64)
    (z1 : ¬Z s m₁ e₁) (z2 : ¬Z s m₂ e₂) {k : ℤ} (hk : k = 2 ^ 64 - 2 ^ 48 + 127) :
    (∃ p, F192.add (mk' s m₁ e₁) (mk' s m₂ e₂) = throw p) ∧ (2 : ℚ) ^ k ≤ mg m₁ e₁ + mg m₂ e₂ ∨
    ∃ m e, Nrm m ∧ e < B64 ∧ e₁ ≤ e ∧ e₂ ≤ e ∧ ¬Z s m e ∧
      F192.add (mk' s m₁ e₁) (mk' s m₂ e₂) = pure (mk' s m e) ∧ F192.Trunc (mg m₁ e₁ + mg m₂ e₂) m e := by
  rcases F192.add_same h1 h2 b1 b2 z1 z2 with ⟨hp, -⟩ | ⟨m, e, a1, a2, a3, a4, -, a6, a7, a8⟩
  swap
  · exact Or.inr ⟨m, e, a1, a2, a3, a4, a6, a7, a8⟩
  left
  refine ⟨⟨_, hp⟩, ?_⟩
  have key : ∀ {m₁ e₁ m₂ e₂ : Nat}, Nrm m₁ → Nrm m₂ → e₂ ≤ e₁ → e₁ < B64 →
      F192.addAligned (mk' s m₁ e₁) (mk' s m₂ e₂) = throw .overflow → (2 : ℚ) ^ k ≤ mg m₁ e₁ + mg m₂ e₂ := by
    intro m₁ e₁ m₂ e₂ h1 h2 he hb hp
    rcases F192.addAligned_c (s := s) h1 h2 he hb with ⟨c1, c2, c3, -⟩ | ⟨m, e, -, -, -, -, -, g, -⟩
    · obtain ⟨d, rfl⟩ : ∃ d, e₁ = e₂ + d := ⟨e₁ - e₂, by omega⟩
      rw [Nat.add_sub_cancel_left] at c3
      have hk2 : (2 : ℚ) ^ k = 2 ^ (128 : ℤ) * ulp (e₂ + d) := by
        rw [ulp, ← zpow_add₀ (by norm_num), c1, hk]
        congr 1
      rw [hk2, F192.mg_eq, F192.mg_eq, F192.ulp_add]
      have hu := F192.ulp_pos e₂
      generalize ulp e₂ = u at *
      have c4 : 340282366920938463463374607431768211456 * 2 ^ d ≤ m₁ * 2 ^ d + m₂ := by
        calc _ ≤ (m₁ + m₂ / 2 ^ d) * 2 ^ d := Nat.mul_le_mul_right _ c3
          _ = m₁ * 2 ^ d + m₂ / 2 ^ d * 2 ^ d := Nat.add_mul _ _ _
          _ ≤ _ := Nat.add_le_add_left (Nat.div_mul_le_self _ _) _
      have c5 : (340282366920938463463374607431768211456 * 2 ^ d : ℚ) ≤ m₁ * 2 ^ d + m₂ := by exact_mod_cast c4
      have c6 := mul_le_mul_of_nonneg_right c5 hu.le
      calc (2 : ℚ) ^ (128 : ℤ) * (u * 2 ^ d) = 340282366920938463463374607431768211456 * 2 ^ d * u := by norm_num; ring
        _ ≤ (m₁ * 2 ^ d + m₂) * u := c6
        _ = _ := by ring
    · rw [g] at hp
      cases hp
  rw [F192.add, F192.is_neg_mk h1, F192.is_neg_mk h2, F192.is_zero_mk h1, F192.is_zero_mk h2, if_neg (by simp),
    if_neg (by simpa [Z] using z1), if_neg (by simpa [Z] using z2), F192.mk_exp, F192.mk_exp] at hp
  by_cases hg : e₁ > e₂
  · rw [if_pos hg] at hp
    exact key h1 h2 hg.le b1 hp
  · rw [if_neg hg] at hp
    rw [add_comm]
    exact key h2 h1 (not_lt.1 hg) b2 hp

/-- The sum of two numbers of the same sign is the exact sum cut off to 128 bits, unless it is above all numbers of the format. -/
theorem C41_add_same_all {x y : F192} (hx : FValid x) (hy : FValid y) (h : 0 < fval x * fval y) {k : ℤ} (hk : k = 2 ^ 64 - 2 ^ 48 + 127) :
    Panics (F192.add x y) ∧ 2 ^ k ≤ |fval x + fval y| ∨
    ∃ z, F192.add x y = pure z ∧ Truncates z (fval x + fval y) ∧ Close z (fval x + fval y) (1 / 2 ^ 127) := by
  obtain ⟨s, m, e, hm, he, hz, rfl, hv⟩ := F192.mk_of_not_zero hx (left_ne_zero_of_mul h.ne')
  obtain ⟨s', m', e', hm', he', hz', rfl, hv'⟩ := F192.mk_of_not_zero hy (right_ne_zero_of_mul h.ne')
  rw [hv, hv'] at h
  obtain rfl := mul_nonneg_sgn (F192.mg_pos hm) (F192.mg_pos hm') h.le
  have hp := add_pos (F192.mg_pos (e := e) hm) (F192.mg_pos (e := e') hm')
  rw [hv, hv', ← mul_add, abs_mul, F192.abs_sgn, one_mul, abs_of_pos hp]
  rcases same_sum hm hm' he he' hz hz' hk with ⟨p, q⟩ | ⟨m2, e2, a1, a2, -, -, a6, a7, a8⟩
  · exact Or.inl ⟨p, q⟩
  · exact Or.inr ⟨_, a7, truncates_trunc a1 a2 a6 a8, close_trunc a1 a2 a6 a8⟩

/-- numbers with the largest exponent can have a sum -/
example {k : ℤ} (hk : k = 2 ^ 64 - 2 ^ 48 + 127) : Panics (F192.add ⟨5, 2 ^ 64 - 1⟩ ⟨2 ^ 126, 2 ^ 64 - 129⟩) ∧ 2 ^ k ≤ |fval ⟨5, 2 ^ 64 - 1⟩ + fval ⟨2 ^ 126, 2 ^ 64 - 129⟩| ∨
    ∃ z, F192.add ⟨5, 2 ^ 64 - 1⟩ ⟨2 ^ 126, 2 ^ 64 - 129⟩ = pure z ∧ Truncates z (fval ⟨5, 2 ^ 64 - 1⟩ + fval ⟨2 ^ 126, 2 ^ 64 - 129⟩) ∧
      Close z (fval ⟨5, 2 ^ 64 - 1⟩ + fval ⟨2 ^ 126, 2 ^ 64 - 129⟩) (1 / 2 ^ 127) :=
  C41_add_same_all (by decide) (by decide) (mul_pos (pos_of (by decide) (by decide) (by decide)) (pos_of (by decide) (by decide) (by decide))) hk

/-- The difference of two numbers of different signs is the exact difference cut off to 128 bits, unless it is above all numbers of the
format. -/
theorem C41_sub_opposite_all {x y : F192} (hx : FValid x) (hy : FValid y) (tx : x ≠ negTiny) (ty : y ≠ negTiny) (h : fval x * fval y < 0)
    {k : ℤ} (hk : k = 2 ^ 64 - 2 ^ 48 + 127) :
    Panics (F192.sub x y) ∧ 2 ^ k ≤ |fval x - fval y| ∨
    ∃ z, F192.sub x y = pure z ∧ Truncates z (fval x - fval y) ∧ Close z (fval x - fval y) (1 / 2 ^ 127) := by
  obtain ⟨s, m, e, hm, he, hz, rfl, hv⟩ := F192.mk_of_not_zero hx (left_ne_zero_of_mul h.ne)
  obtain ⟨s', m', e', hm', he', hz', rfl, hv'⟩ := F192.mk_of_not_zero hy (right_ne_zero_of_mul h.ne)
  have p1 := F192.mg_pos (e := e) hm
  have p2 := F192.mg_pos (e := e') hm'
  have hs : s' = !s := by
    rw [hv, hv'] at h
    have := mul_pos p1 p2
    cases s <;> cases s' <;> simp only [F192.sgn_true, F192.sgn_false] at h <;> first | rfl | (exfalso; nlinarith)
  subst hs
  have hd : fval (mk' s m e) - fval (mk' (!s) m' e') = sgn s * (mg m e + mg m' e') := by
    rw [hv, hv']
    cases s
    · rw [Bool.not_false, F192.sgn_true, F192.sgn_false]; ring
    · rw [Bool.not_true, F192.sgn_true, F192.sgn_false]; ring
  rw [hd, abs_mul, F192.abs_sgn, one_mul, abs_of_pos (add_pos p1 p2), F192.sub, F192.is_neg_mk hm, F192.is_neg_mk hm', if_pos (by cases s <;> decide)]
  cases s
  · rw [if_neg (by decide), F192.neg_mk hm' hz', Bool.not_not]
    have hz2 : ¬Z false m' e' := tiny_iff hm' ty
    rcases same_sum hm hm' he he' hz hz2 hk with ⟨p, q⟩ | ⟨m2, e2, a1, a2, -, -, a6, a7, a8⟩
    · exact Or.inl ⟨p, q⟩
    · exact Or.inr ⟨_, a7, truncates_trunc a1 a2 a6 a8, close_trunc a1 a2 a6 a8⟩
  · rw [if_pos rfl, F192.neg_mk hm hz, Bool.not_true]
    have hz2 : ¬Z false m e := tiny_iff hm tx
    rw [Bool.not_true] at hz'
    rcases same_sum hm' hm he' he hz' hz2 hk with ⟨p, q⟩ | ⟨m2, e2, a1, a2, -, -, a6, a7, a8⟩
    · exact Or.inl ⟨F192.panics_bind p _, by rwa [add_comm] at q⟩
    · rw [add_comm] at a8
      rw [a7, pure_bind, F192.neg_mk a1 a6, Bool.not_false]
      exact Or.inr ⟨_, rfl, truncates_trunc a1 a2 F192.nz_true a8, close_trunc a1 a2 F192.nz_true a8⟩

/-- the smallest positive number minus -1 -/
example {k : ℤ} (hk : k = 2 ^ 64 - 2 ^ 48 + 127) : Panics (F192.sub ⟨1, 0⟩ (F192.neg ONE)) ∧ 2 ^ k ≤ |fval ⟨1, 0⟩ - fval (F192.neg ONE)| ∨
    ∃ z, F192.sub ⟨1, 0⟩ (F192.neg ONE) = pure z ∧ Truncates z (fval ⟨1, 0⟩ - fval (F192.neg ONE)) ∧
      Close z (fval ⟨1, 0⟩ - fval (F192.neg ONE)) (1 / 2 ^ 127) := by
  obtain ⟨-, n2, n3, -⟩ := seen_neg (x := ONE) (by decide) (by decide)
  have h1 := pos_of (x := ⟨1, 0⟩) (by decide) (by decide) (by decide)
  have h2 := pos_of (x := ONE) (by decide) (by decide) (by decide)
  exact C41_sub_opposite_all (by decide) n2 (by decide) (by decide) (by rw [n3]; nlinarith) hk

end Props
end Hmath
