import Verif.Props.Fp192Sym
import Verif.Props.Fp192Sum
import Verif.Props.Fp192Tiny
import Verif.Props.Fp192Fast

/-!
# C85: the order of the numbers is kept by products, quotients by integers and sums
-/

namespace Hmath
namespace F192

/-- the digits of a product -/
def pf (a b : Nat) : Nat :=
  a / 2 ^ 64 * (b / 2 ^ 64) + (a / 2 ^ 64 * (b % 2 ^ 64) / 2 + b / 2 ^ 64 * (a % 2 ^ 64) / 2) / 2 ^ 63

theorem mulDigits_pf {d₁ d₂ : Nat} (h1 : Nrm d₁) (h2 : Nrm d₂) (E : Nat) : mulDigits d₁ d₂ E = pure (pf d₁ d₂, E) := by
  have e1 := Nat.div_add_mod d₁ (2 ^ 64)
  have e2 := Nat.div_add_mod d₂ (2 ^ 64)
  have a1 : 2 ^ 63 ≤ d₁ / 2 ^ 64 ∧ d₁ / 2 ^ 64 < 2 ^ 64 := by
    obtain ⟨g1, g2⟩ := h1; constructor <;> omega
  have a2 : 2 ^ 63 ≤ d₂ / 2 ^ 64 ∧ d₂ / 2 ^ 64 < 2 ^ 64 := by
    obtain ⟨g1, g2⟩ := h2; constructor <;> omega
  have b1 : d₁ % 2 ^ 64 < 2 ^ 64 := Nat.mod_lt _ (by norm_num)
  have b2 : d₂ % 2 ^ 64 < 2 ^ 64 := Nat.mod_lt _ (by norm_num)
  rw [mulDigits, pf]
  rw [show (18446744073709551615 : Nat) = 2 ^ 64 - 1 by norm_num, Nat.and_two_pow_sub_one_eq_mod,
    Nat.and_two_pow_sub_one_eq_mod]
  generalize d₁ / 2 ^ 64 = p at *
  generalize d₁ % 2 ^ 64 = q at *
  generalize d₂ / 2 ^ 64 = r at *
  generalize d₂ % 2 ^ 64 = t at *
  have c0 : p * r ≤ (2 ^ 64 - 1) * (2 ^ 64 - 1) := Nat.mul_le_mul (by omega) (by omega)
  have c1 : p * t ≤ (2 ^ 64 - 1) * (2 ^ 64 - 1) := Nat.mul_le_mul (by omega) (by omega)
  have c2 : r * q ≤ (2 ^ 64 - 1) * (2 ^ 64 - 1) := Nat.mul_le_mul (by omega) (by omega)
  have key : d₁ * d₂ = p * r * B128 + (p * t + r * q) * 2 ^ 64 + q * t := by
    rw [← e1, ← e2]; ring
  have hlt : d₁ * d₂ < B128 * B128 := by
    calc d₁ * d₂ < B128 * d₂ := Nat.mul_lt_mul_of_pos_right h1.2 (by have := h2.1; omega)
      _ ≤ _ := Nat.mul_le_mul_left _ (le_of_lt h2.2)
  rw [key] at hlt
  norm_num at c0 c1 c2 hlt
  rw [u128Mul, uMul_eq (by omega), pure_bind, uMul_eq (by omega), pure_bind, uMul_eq (by omega),
    pure_bind, u128Add, uAdd_eq (by omega), pure_bind, uShr_eq (by omega), pure_bind]
  generalize p * r = u at *
  generalize p * t = v at *
  generalize r * q = w at *
  generalize q * t = z at *
  have hX : (v / 2 + w / 2) / 2 ^ 63 * 2 ^ 64 ≤ v + w := by omega
  generalize (v / 2 + w / 2) / 2 ^ 63 = X at *
  rw [mulSum, if_pos (by omega)]

theorem pf_mono {a a' : Nat} (b : Nat) (h : a ≤ a') : pf a b ≤ pf a' b := by
  unfold pf
  have h0 : a / 2 ^ 64 ≤ a' / 2 ^ 64 := Nat.div_le_div_right h
  have e1 := Nat.div_add_mod a (2 ^ 64)
  have e2 := Nat.div_add_mod a' (2 ^ 64)
  have l1 := Nat.mod_lt a (show 2 ^ 64 > 0 by norm_num)
  generalize a / 2 ^ 64 = p at *
  generalize a % 2 ^ 64 = q at *
  generalize a' / 2 ^ 64 = p' at *
  generalize a' % 2 ^ 64 = q' at *
  generalize b / 2 ^ 64 = r at *
  generalize b % 2 ^ 64 = t at *
  have m1 : p * t ≤ p' * t := Nat.mul_le_mul_right _ h0
  rcases Nat.lt_or_ge p p' with hp | hp
  · have g1 : r * q ≤ r * 2 ^ 64 := Nat.mul_le_mul_left _ (le_of_lt l1)
    have g2 : p * r + r ≤ p' * r := by
      have := Nat.mul_le_mul_right r hp
      rwa [Nat.succ_mul] at this
    generalize p * r = A at *
    generalize p' * r = A' at *
    generalize p * t = B at *
    generalize p' * t = B' at *
    generalize r * q = C at *
    generalize r * q' = C' at *
    omega
  · have hpp : p = p' := le_antisymm h0 hp
    subst hpp
    have hq : r * q ≤ r * q' := Nat.mul_le_mul_left _ (by omega)
    generalize r * q = C at *
    generalize r * q' = C' at *
    generalize p * t = B at *
    omega

theorem pf_half {a b : Nat} (ha : Nrm a) (hb : Nrm b) : pf a b ≤ 2 * pf S127 b := by
  have h1 : pf a b < b := by
    obtain ⟨P, -, -, hm, hp, -⟩ := mulDigits_c ha hb 0
    rw [mulDigits_pf ha hb] at hm
    have : pf a b = P := by injection hm with hm; injection hm with hm; injection hm
    rw [this]
    have := Nat.mul_lt_mul_of_pos_right ha.2 (show 0 < b by have := hb.1; omega)
    exact Nat.lt_of_mul_lt_mul_left (lt_of_le_of_lt hp this)
  have h2 : b ≤ 2 * pf S127 b + 1 := by
    rw [pf]
    norm_num
    have := Nat.div_add_mod b (2 ^ 64)
    norm_num at this
    omega
  omega

/-- the magnitude of a product -/
def pv (m₁ e₁ m₂ e₂ : Nat) : ℚ :=
  if e₁ + e₂ < 281474976710656 then 0 else (pf m₁ m₂ : ℚ) * ulp (e₁ + e₂ - 281474976710656 + 128)

theorem pv_nonneg (m₁ e₁ m₂ e₂ : Nat) : 0 ≤ pv m₁ e₁ m₂ e₂ := by
  unfold pv
  split
  · exact le_rfl
  · exact mul_nonneg (Nat.cast_nonneg _) (ulp_pos _).le

theorem mul_pv {a b : Bool} {m₁ e₁ m₂ e₂ : Nat} (h1 : Nrm m₁) (h2 : Nrm m₂) (z1 : ¬Z a m₁ e₁) (z2 : ¬Z b m₂ e₂) {u : F192}
    (hu : mul (mk' a m₁ e₁) (mk' b m₂ e₂) = pure u) : fval u = sgn (a != b) * pv m₁ e₁ m₂ e₂ := by
  have hn : (is_zero (mk' a m₁ e₁) || is_zero (mk' b m₂ e₂)) = false := by
    rw [is_zero_mk h1, is_zero_mk h2, Bool.or_eq_false_iff, decide_eq_false_iff_not, decide_eq_false_iff_not]; exact ⟨z1, z2⟩
  rw [mul, hn, if_neg Bool.false_ne_true, mk_exp, mk_exp, u64Add] at hu
  by_cases hE' : e₁ + e₂ < B64
  · rw [uAdd_eq hE', pure_bind] at hu
    by_cases hE : e₁ + e₂ < 281474976710656
    · rw [if_pos (show e₁ + e₂ < EXP_COEFF from hE)] at hu
      have : ZERO = u := by injection hu with hu; injection hu
      rw [← this, pv, if_pos hE, mul_zero]; rfl
    · rw [if_neg (show ¬e₁ + e₂ < EXP_COEFF from hE), uAdd_eq (by unfold EXP_COEFF; omega), pure_bind, or_mk' h1, or_mk' h2, mulDigits_pf h1 h2, pure_bind] at hu
      obtain ⟨P, p1, p2, p3, -⟩ := mulDigits_c h1 h2 0
      rw [mulDigits_pf h1 h2] at p3
      have hP : pf m₁ m₂ = P := by injection p3 with p3; injection p3 with p3; injection p3
      rw [← hP] at p1 p2
      dsimp only at hu
      rw [pv, if_neg hE]
      generalize pf m₁ m₂ = P at *
      have hP0 : P ≠ 0 := by omega
      obtain ⟨l1, l2⟩ := lz_bounds hP0 p2
      have l3 : lz128 P ≤ 1 := by
        rw [lz128, if_neg hP0]
        have := (Nat.le_log2 hP0).2 p1
        omega
      rw [uShl_eq (by omega), pure_bind, Nat.mod_eq_of_lt l2.2, uSub_eq (by omega), pure_bind, xor_sign _ _ _ _ _ _ h1 h2,
        pack_mk l2 (by have := l2.1; have := l2.2; omega)] at hu
      have hw : mk' (a != b) (P * 2 ^ lz128 P) (e₁ + e₂ - EXP_COEFF + 128 - lz128 P) = u := by injection hu with hu; injection hu
      rw [← hw, fval_mk l2 (nz_exp (by omega)), mg_shift, show e₁ + e₂ - EXP_COEFF + 128 - lz128 P + lz128 P = e₁ + e₂ - 281474976710656 + 128 by
        unfold EXP_COEFF; omega, mg_eq]
  · rw [uAdd, if_neg hE'] at hu
    cases hu

theorem pv_mono {m₁ e₁ m₂ e₂ m e : Nat} (h1 : Nrm m₁) (h2 : Nrm m₂) (h : Nrm m) (hl : mg m₁ e₁ ≤ mg m₂ e₂) :
    pv m₁ e₁ m e ≤ pv m₂ e₂ m e := by
  have he : e₁ ≤ e₂ := by
    by_contra hc
    exact absurd (mg_lt_of_exp h2 h1 (not_le.1 hc)) (not_lt.2 hl)
  by_cases hu : e₁ + e < 281474976710656
  · rw [pv, if_pos hu]; exact pv_nonneg _ _ _ _
  rw [pv, if_neg hu, pv, if_neg (by omega)]
  rcases Nat.lt_or_ge e₁ e₂ with hlt | hge
  · have a1 : (pf m₁ m : ℚ) ≤ 2 * pf m₂ m := by
      have := pf_half h1 h
      have := pf_mono m h2.1
      exact_mod_cast (by omega : pf m₁ m ≤ 2 * pf m₂ m)
    have a2 : ulp (e₁ + e - 281474976710656 + 128) * 2 ≤ ulp (e₂ + e - 281474976710656 + 128) := by
      rw [← ulp_succ]; exact ulp_mono (by omega)
    calc (pf m₁ m : ℚ) * ulp (e₁ + e - 281474976710656 + 128) ≤ 2 * pf m₂ m * ulp (e₁ + e - 281474976710656 + 128) :=
          mul_le_mul_of_nonneg_right a1 (ulp_pos _).le
      _ = pf m₂ m * (ulp (e₁ + e - 281474976710656 + 128) * 2) := by ring
      _ ≤ _ := mul_le_mul_of_nonneg_left a2 (Nat.cast_nonneg _)
  · have hee : e₁ = e₂ := le_antisymm he hge
    subst hee
    rw [mg_eq, mg_eq] at hl
    have hm : m₁ ≤ m₂ := by exact_mod_cast le_of_mul_le_mul_right hl (ulp_pos _)
    exact mul_le_mul_of_nonneg_right (by exact_mod_cast pf_mono m hm) (ulp_pos _).le

theorem trunc_le {m e m' e' : Nat} {p q : ℚ} (hm : Nrm m) (hm' : Nrm m') (t : Trunc p m e) (t' : Trunc q m' e') (h : p ≤ q) :
    mg m e ≤ mg m' e' := by
  by_contra hc
  rw [not_le] at hc
  have he : e' ≤ e := by
    by_contra h1
    exact absurd (mg_lt_of_exp hm hm' (not_le.1 h1)) (not_lt.2 hc.le)
  obtain ⟨k, rfl⟩ : ∃ k, e = e' + k := ⟨e - e', by omega⟩
  have hk : mg m (e' + k) = ((m * 2 ^ k : Nat) : ℚ) * ulp e' := by
    rw [mg_add, mg_eq]; push_cast; ring
  have hp := ulp_pos e'
  have t1 := t.1
  have t2 := t'.2
  rw [hk, mg_eq] at hc
  have h2 : m' + 1 ≤ m * 2 ^ k := by exact_mod_cast lt_of_mul_lt_mul_right hc hp.le
  have h3 : ((m' + 1 : Nat) : ℚ) * ulp e' ≤ ((m * 2 ^ k : Nat) : ℚ) * ulp e' := mul_le_mul_of_nonneg_right (by exact_mod_cast h2) hp.le
  rw [hk] at t1
  rw [mg_eq] at t2
  push_cast at h3 t1
  linarith

theorem fval_sign {m e : Nat} (hm : Nrm m) : 0 ≤ fval (mk' false m e) ∧ fval (mk' true m e) ≤ 0 := by
  have := mg_pos (e := e) hm
  constructor
  · rcases fval_cases (s := false) (e := e) hm with ⟨-, -, -, h⟩ | ⟨-, h⟩
    · rw [h]
    · rw [h, sgn_false]; linarith
  · rw [fval_mk hm nz_true, sgn_true]; linarith

/-- zero takes the place of the least positive number, and so the order is kept -/
theorem fval_mono {m e m' e' : Nat} (hm : Nrm m) (hm' : Nrm m') (h : mg m e ≤ mg m' e') :
    fval (mk' false m e) ≤ fval (mk' false m' e') ∧ fval (mk' true m' e') ≤ fval (mk' true m e) := by
  constructor
  · rcases fval_cases (s := false) (e := e) hm with ⟨-, -, -, a⟩ | ⟨n, a⟩
    · rw [a]; exact (fval_sign hm').1
    · rcases fval_cases (s := false) (e := e') hm' with ⟨-, rfl, rfl, b⟩ | ⟨-, b⟩
      · exfalso
        have he : e = 0 := by
          by_contra hc
          exact absurd (mg_lt_of_exp hm' hm (Nat.pos_of_ne_zero hc)) (not_lt.2 h)
        subst he
        rw [mg_eq, mg_eq] at h
        have : m ≤ S127 := by exact_mod_cast le_of_mul_le_mul_right h (ulp_pos 0)
        exact n ⟨rfl, le_antisymm this hm.1, rfl⟩
      · rw [a, b, sgn_false]; linarith
  · rw [fval_mk hm nz_true, fval_mk hm' nz_true, sgn_true]; linarith

theorem log_step : ∀ a < 64, ∀ b < 32, tab LOG_TABLE (32 * a + b) ≤ tab LOG_TABLE (32 * a + b + 1) := by decide +kernel
theorem pow_step : ∀ a < 64, ∀ b < 32, tab POW_TABLE (32 * a + b) ≤ tab POW_TABLE (32 * a + b + 1) := by decide +kernel

theorem tab_mono {t : List Nat} (ht : ∀ a < 64, ∀ b < 32, tab t (32 * a + b) ≤ tab t (32 * a + b + 1)) {i : Nat} :
    ∀ {j : Nat}, i ≤ j → j < 2048 → tab t i ≤ tab t j
  | 0, h, _ => by rw [Nat.le_zero.1 h]
  | j + 1, h, hj => by
    rcases Nat.lt_or_ge i (j + 1) with h1 | h1
    · exact (tab_mono ht (Nat.lt_succ_iff.1 h1) (by omega)).trans (split32 (P := fun i => tab t i ≤ tab t (i + 1)) ht (by omega))
    · rw [le_antisymm h h1]

end F192

namespace Props
open F192 (ZERO)

/-- the magnitude of the product of a number with `mk' s m e`, with the sign of the number -/
private theorem mul_val {x u : F192} {s : Bool} {m e : Nat} (hx : FValid x) (hm : F192.Nrm m) (hs : ¬F192.Z s m e)
    (h : F192.mul x (F192.mk' s m e) = pure u) :
    (fval x = 0 ∧ F192.sgn s * fval u = 0) ∨ ∃ t n f, F192.Nrm n ∧ fval x = F192.sgn t * F192.mg n f ∧
      F192.sgn s * fval u = F192.sgn t * F192.pv n f m e := by
  by_cases h0 : fval x = 0
  · rw [(F192.fval_eq_zero hx).1 h0, show F192.mul ZERO (F192.mk' s m e) = pure ZERO from rfl] at h
    have : ZERO = u := by injection h with h; injection h
    rw [← this, F192.fval_zero, mul_zero]
    exact .inl ⟨h0, rfl⟩
  · obtain ⟨t, n, f, hn, -, nz, rfl, hv⟩ := F192.mk_of_not_zero hx h0
    refine .inr ⟨t, n, f, hn, hv, ?_⟩
    rw [F192.mul_pv hn hm nz hs h]
    cases s <;> cases t <;> simp only [F192.sgn_true, F192.sgn_false, bne_self_eq_false, Bool.true_bne, Bool.false_bne, Bool.not_false] <;> ring

private theorem mul_order {x y u v : F192} {s : Bool} {m e : Nat} (hx : FValid x) (hy : FValid y) (hm : F192.Nrm m) (hs : ¬F192.Z s m e)
    (hl : fval x ≤ fval y) (hu : F192.mul x (F192.mk' s m e) = pure u) (hv : F192.mul y (F192.mk' s m e) = pure v) :
    F192.sgn s * fval u ≤ F192.sgn s * fval v := by
  rcases mul_val hx hm hs hu with ⟨x0, a⟩ | ⟨t, n, f, hn, x0, a⟩ <;> rcases mul_val hy hm hs hv with ⟨y0, b⟩ | ⟨t', n', f', hn', y0, b⟩ <;>
    rw [a, b] <;> rw [x0, y0] at hl
  · have q := F192.mg_pos (e := f') hn'
    have := F192.pv_nonneg n' f' m e
    cases t' <;> simp only [F192.sgn_true, F192.sgn_false] at hl ⊢ <;> linarith
  · have q := F192.mg_pos (e := f) hn
    have := F192.pv_nonneg n f m e
    cases t <;> simp only [F192.sgn_true, F192.sgn_false] at hl ⊢ <;> linarith
  · have q := F192.mg_pos (e := f) hn
    have q' := F192.mg_pos (e := f') hn'
    have r := F192.pv_nonneg n f m e
    have r' := F192.pv_nonneg n' f' m e
    cases t <;> cases t' <;> simp only [F192.sgn_true, F192.sgn_false] at hl ⊢
    · have := F192.pv_mono (e₁ := f) (e₂ := f') (m := m) (e := e) hn hn' hm (by linarith)
      linarith
    · linarith
    · linarith
    · have := F192.pv_mono (e₁ := f') (e₂ := f) (m := m) (e := e) hn' hn hm (by linarith)
      linarith

/-- C85: multiplication with a number that is not negative keeps the order of the numbers, although the products are rounded and
small products are replaced by zero. -/
theorem C85_mul_mono {x y z u v : F192} (hx : FValid x) (hy : FValid y) (hz : FValid z) (hl : fval x ≤ fval y) (hp : 0 ≤ fval z)
    (hu : F192.mul x z = pure u) (hv : F192.mul y z = pure v) : fval u ≤ fval v := by
  by_cases h0 : fval z = 0
  · have e := (F192.fval_eq_zero hz).1 h0
    subst e
    rw [C84_mul_comm, show F192.mul ZERO x = pure ZERO from rfl] at hu
    rw [C84_mul_comm, show F192.mul ZERO y = pure ZERO from rfl] at hv
    rw [hu] at hv
    have : u = v := by injection hv with hv; injection hv
    rw [this]
  · obtain ⟨s, m, e, hm, -, nz, rfl, h⟩ := F192.mk_of_not_zero hz h0
    have := mul_order hx hy hm nz hl hu hv
    rw [h] at hp
    have q := F192.mg_pos (e := e) hm
    cases s <;> simp only [F192.sgn_true, F192.sgn_false] at hp this <;> linarith

/-- C85: multiplication with a number that is not positive reverses the order of the numbers. -/
theorem C85_mul_anti {x y z u v : F192} (hx : FValid x) (hy : FValid y) (hz : FValid z) (hl : fval x ≤ fval y) (hp : fval z ≤ 0)
    (hu : F192.mul x z = pure u) (hv : F192.mul y z = pure v) : fval v ≤ fval u := by
  by_cases h0 : fval z = 0
  · have e := (F192.fval_eq_zero hz).1 h0
    subst e
    rw [C84_mul_comm, show F192.mul ZERO x = pure ZERO from rfl] at hu
    rw [C84_mul_comm, show F192.mul ZERO y = pure ZERO from rfl] at hv
    rw [hu] at hv
    have : u = v := by injection hv with hv; injection hv
    rw [this]
  · obtain ⟨s, m, e, hm, -, nz, rfl, h⟩ := F192.mk_of_not_zero hz h0
    have := mul_order hx hy hm nz hl hu hv
    rw [h] at hp
    have q := F192.mg_pos (e := e) hm
    cases s <;> simp only [F192.sgn_true, F192.sgn_false] at hp this <;> linarith

private def done : M F192 → Bool
  | some (.ok _) => true
  | _ => false

private theorem of_done {m : M F192} (h : done m = true) : ∃ u, m = pure u := by
  match m, h with
  | some (.ok u), _ => exact ⟨u, rfl⟩

private theorem fle {x y : F192} (hx : FValid x) (hy : FValid y) (h : F192.lt x y = true) : fval x ≤ fval y :=
  le_of_lt (((C39_ops hx hy).1).1 h)

/-- The hypotheses are met by -π, e and 3/2; the order of the products follows. -/
example : ∃ u v, F192.mul (F192.neg F192.PI) ⟨2 ^ 126, 2 ^ 48 - 127⟩ = pure u ∧ F192.mul F192.E ⟨2 ^ 126, 2 ^ 48 - 127⟩ = pure v ∧ fval u ≤ fval v := by
  obtain ⟨u, hu⟩ : ∃ u, F192.mul (F192.neg F192.PI) ⟨2 ^ 126, 2 ^ 48 - 127⟩ = pure u := of_done (by decide +kernel)
  obtain ⟨v, hv⟩ : ∃ v, F192.mul F192.E ⟨2 ^ 126, 2 ^ 48 - 127⟩ = pure v := of_done (by decide +kernel)
  exact ⟨u, v, hu, hv, C85_mul_mono (by decide) (by decide) (by decide) (fle (by decide) (by decide) (by decide))
    (F192.fval_zero ▸ fle (x := ZERO) (by decide) (by decide) (by decide)) hu hv⟩

/-- The same with the factor -3/2, for a number of the smallest exponent, whose product is below the representable numbers. -/
example : ∃ u v, F192.mul ⟨7, 0⟩ ⟨2 ^ 127 + 2 ^ 126, 2 ^ 48 - 127⟩ = pure u ∧ F192.mul F192.E ⟨2 ^ 127 + 2 ^ 126, 2 ^ 48 - 127⟩ = pure v ∧ fval v ≤ fval u := by
  obtain ⟨u, hu⟩ : ∃ u, F192.mul ⟨7, 0⟩ ⟨2 ^ 127 + 2 ^ 126, 2 ^ 48 - 127⟩ = pure u := of_done (by decide +kernel)
  obtain ⟨v, hv⟩ : ∃ v, F192.mul F192.E ⟨2 ^ 127 + 2 ^ 126, 2 ^ 48 - 127⟩ = pure v := of_done (by decide +kernel)
  exact ⟨u, v, hu, hv, C85_mul_anti (by decide) (by decide) (by decide) (fle (by decide) (by decide) (by decide))
    (F192.fval_zero ▸ fle (y := ZERO) (by decide) (by decide) (by decide)) hu hv⟩

private theorem trunc_mono {u v : F192} {p q : ℚ} (hu : Truncates u p) (hv : Truncates v q) (h : p ≤ q) : fval u ≤ fval v := by
  obtain ⟨u1, u2, u3, u4⟩ := hu
  obtain ⟨v1, v2, v3, v4⟩ := hv
  rcases lt_trichotomy p 0 with hp | hp | hp
  · have a : fval u < 0 := by rw [sign_neg hp] at u2; exact sign_eq_neg_one_iff.1 u2
    rcases lt_or_ge q 0 with hq | hq
    · have b : fval v < 0 := by rw [sign_neg hq] at v2; exact sign_eq_neg_one_iff.1 v2
      have := u4 v v1 (v3.trans (by rw [abs_of_neg hp, abs_of_neg hq]; linarith))
      rw [abs_of_neg a, abs_of_neg b] at this
      linarith
    · have b : 0 ≤ fval v := by
        by_contra hc
        rw [sign_neg (not_le.1 hc)] at v2
        exact absurd (sign_eq_neg_one_iff.1 v2.symm) (not_lt.2 hq)
      linarith
  · have a : fval u = 0 := by rw [hp, sign_zero] at u2; exact sign_eq_zero_iff.1 u2
    have b : 0 ≤ fval v := by
      by_contra hc
      rw [sign_neg (not_le.1 hc)] at v2
      exact absurd (sign_eq_neg_one_iff.1 v2.symm) (not_lt.2 (hp ▸ h))
    linarith
  · have hq : 0 < q := by linarith
    have a : 0 < fval u := by rw [sign_pos hp] at u2; exact sign_eq_one_iff.1 u2
    have b : 0 < fval v := by rw [sign_pos hq] at v2; exact sign_eq_one_iff.1 v2
    have := v4 u u1 (u3.trans (by rw [abs_of_pos hp, abs_of_pos hq]; exact h))
    rwa [abs_of_pos a, abs_of_pos b] at this

private theorem add_trunc {x z u : F192} (hx : FValid x) (hz : FValid z) (h : 0 < fval x * fval z) (hu : F192.add x z = pure u) :
    Truncates u (fval x + fval z) := by
  rcases C41_add_same_all hx hz h rfl with ⟨⟨p, hp⟩, -⟩ | ⟨w, hw, ht, -⟩
  · rw [hu] at hp; injection hp with hp; cases hp
  · rw [hu] at hw
    have : u = w := by injection hw with hw; injection hw
    rwa [this]

/-- C85: adding a number keeps the order of numbers of its sign. The claim is for numbers of all signs; that is false, see
`C85_add_counterexample`. -/
theorem C85_add_mono_partial {x y z u v : F192} (hx : FValid x) (hy : FValid y) (hz : FValid z) (hl : fval x ≤ fval y)
    (sx : 0 < fval x * fval z) (sy : 0 < fval y * fval z)
    (hu : F192.add x z = pure u) (hv : F192.add y z = pure v) : fval u ≤ fval v :=
  trunc_mono (add_trunc hx hz sx hu) (add_trunc hy hz sy hv) (by linarith)

private theorem add_zero_nonneg {x u : F192} (hx : FValid x) (h : 0 ≤ fval x) (hu : F192.add ZERO x = pure u) : u = x := by
  have hn : F192.is_neg x = false := by rw [F192.is_neg_c hx]; exact decide_eq_false (not_lt.2 h)
  rw [F192.add, hn, show F192.is_neg ZERO = false from rfl, if_neg (by decide), if_pos (by decide)] at hu
  injection hu with hu; injection hu with hu; exact hu.symm

private theorem add_trunc_nonneg {x z u : F192} (hx : FValid x) (hz : FValid z) (h : 0 ≤ fval x) (h' : 0 ≤ fval z) (hu : F192.add x z = pure u) :
    Truncates u (fval x + fval z) := by
  have self : ∀ {w : F192}, FValid w → Truncates w (fval w) := fun hw => ⟨hw, rfl, le_rfl, fun _ _ h => h⟩
  by_cases x0 : fval x = 0
  · rw [(F192.fval_eq_zero hx).1 x0] at hu
    rw [add_zero_nonneg hz h' hu, x0, zero_add]
    exact self hz
  by_cases z0 : fval z = 0
  · rw [C84_add_comm hx hz, (F192.fval_eq_zero hz).1 z0] at hu
    rw [add_zero_nonneg hx h hu, z0, add_zero]
    exact self hx
  exact add_trunc hx hz (mul_pos (lt_of_le_of_ne h (Ne.symm x0)) (lt_of_le_of_ne h' (Ne.symm z0))) hu

/-- C85: the sum of numbers that are not negative is monotone in both operands. The claim is for numbers of all signs; that is false, see
`C85_add_counterexample`. -/
theorem C85_add_mono_nonneg_partial {x y z w u v : F192} (hx : FValid x) (hy : FValid y) (hz : FValid z) (hw : FValid w) (h0 : 0 ≤ fval x) (h0' : 0 ≤ fval z)
    (hl : fval x ≤ fval y) (hl' : fval z ≤ fval w) (hu : F192.add x z = pure u) (hv : F192.add y w = pure v) : fval u ≤ fval v :=
  trunc_mono (add_trunc_nonneg hx hz h0 h0' hu) (add_trunc_nonneg hy hw (h0.trans hl) (h0'.trans hl') hv) (add_le_add hl hl')

/-- `u` is `p * r` cut off, where the least positive number may have been made zero -/
private def Cut (p : ℚ) (u : F192) (r : ℚ) : Prop :=
  (p = 0 ∧ fval u = 0) ∨ ∃ s m e m' e', F192.Nrm m ∧ F192.Nrm m' ∧ p = F192.sgn s * F192.mg m e ∧ u = F192.mk' s m' e' ∧
    F192.Trunc (F192.mg m e * r) m' e'

private theorem Cut.mono {p q : ℚ} {u v : F192} {r : ℚ} (hr : 0 < r) (hu : Cut p u r) (hv : Cut q v r) (h : p ≤ q) : fval u ≤ fval v := by
  rcases hu with ⟨a, b⟩ | ⟨s, m, e, m₁, e₁, hm, hm₁, a, rfl, t⟩ <;> rcases hv with ⟨c, d⟩ | ⟨s', m', e', m₂, e₂, hm', hm₂, c, rfl, t'⟩
  · rw [b, d]
  · rw [a, c] at h
    have q := F192.mg_pos (e := e') hm'
    rw [b]
    cases s'
    · exact (F192.fval_sign hm₂).1
    · rw [F192.sgn_true] at h; linarith
  · rw [a, c] at h
    have q := F192.mg_pos (e := e) hm
    rw [d]
    cases s
    · rw [F192.sgn_false] at h; linarith
    · exact (F192.fval_sign hm₁).2
  · rw [a, c] at h
    have q := F192.mg_pos (e := e) hm
    have q' := F192.mg_pos (e := e') hm'
    cases s <;> cases s' <;> simp only [F192.sgn_true, F192.sgn_false] at h
    · exact (F192.fval_mono hm₁ hm₂ (F192.trunc_le hm₁ hm₂ t t' (mul_le_mul_of_nonneg_right (by linarith) hr.le))).1
    · linarith
    · exact (F192.fval_sign hm₁).2.trans (F192.fval_sign hm₂).1
    · exact (F192.fval_mono hm₂ hm₁ (F192.trunc_le hm₂ hm₁ t' t (mul_le_mul_of_nonneg_right (by linarith) hr.le))).2

private theorem pure_inj {u v : F192} (h : (pure u : M F192) = pure v) : u = v := by
  injection h with h; injection h

private theorem pure_int {u v : Int} (h : (pure u : M Int) = pure v) : u = v := by
  injection h with h; injection h

private theorem sgn_prod {s : Bool} {a : Int} (q : ℚ) : (if a < 0 then -(F192.sgn s * q) else F192.sgn s * q) = F192.sgn (F192.prodSign s a) * q := by
  by_cases h : a < 0
  · rw [if_pos h, F192.prodSign, decide_eq_true h]
    cases s <;> simp only [F192.sgn_true, F192.sgn_false, bne_self_eq_false, Bool.false_bne] <;> ring
  · rw [if_neg h, F192.prodSign, decide_eq_false h, Bool.bne_false]

private theorem min_throw {x : F192} (h : fval x ≠ 0) (hx : FValid x) {u : F192} : F192.mul_i32 x (-2 ^ 31) ≠ pure u ∧ F192.div_i32 x (-2 ^ 31) ≠ pure u := by
  have hz : F192.is_zero x = false := by
    rw [F192.is_zero_eq]
    exact decide_eq_false fun hc => h ((F192.fval_eq_zero hx).2 hc)
  have e : i32AbsU128 (-2 ^ 31) = throw .overflow := by rfl
  constructor
  · intro hu
    rw [F192.mul_i32, hz, if_neg (by decide)] at hu
    dsimp only at hu
    rw [e] at hu
    injection hu with hu; cases hu
  · intro hu
    rw [F192.div_i32, if_neg (by decide), hz, if_neg (by decide)] at hu
    dsimp only at hu
    rw [e] at hu
    injection hu with hu; cases hu

private theorem mul_cut {a : Int} (ha : IsI32 a) (h0 : a ≠ 0) {x u : F192} (hx : FValid x) (hu : F192.mul_i32 x a = pure u) :
    Cut (if a < 0 then -fval x else fval x) u a.natAbs := by
  by_cases hz : fval x = 0
  · rw [(F192.fval_eq_zero hx).1 hz, show F192.mul_i32 ZERO a = pure ZERO from rfl] at hu
    exact .inl ⟨by rw [hz, neg_zero, ite_self], by rw [← pure_inj hu, F192.fval_zero]⟩
  · have hmin : a ≠ -2 ^ 31 := by
      rintro rfl
      exact (min_throw hz hx).1 hu
    have hp : ¬Panics (F192.mul_i32 x a) := by
      rintro ⟨p, hp⟩
      rw [hu] at hp; injection hp with hp; cases hp
    rw [C41_mul_i32_panic_iff hx ha hmin hz h0 rfl, not_or] at hp
    have hp := hp.1
    obtain ⟨s, m, e, hm, he, nz, rfl, h⟩ := F192.mk_of_not_zero hx hz
    rw [F192.mk_exp] at hp
    have hA : a.natAbs < 2147483648 := by unfold IsI32 at ha; omega
    rcases F192.mul_i32_c hm nz h0 hA (by omega) with ⟨g, -⟩ | ⟨m', e', g1, -, -, g2, g3⟩
    · rw [hu] at g; injection g with g; cases g
    · rw [hu] at g2
      exact .inr ⟨_, m, e, m', e', hm, g1, by rw [h, sgn_prod], pure_inj g2, g3⟩

private theorem div_cut {a : Int} (ha : IsI32 a) (h0 : a ≠ 0) {x u : F192} (hx : FValid x) (hu : F192.div_i32 x a = pure u) :
    Cut (if a < 0 then -fval x else fval x) u (1 / a.natAbs) := by
  by_cases hz : fval x = 0
  · rw [(F192.fval_eq_zero hx).1 hz, F192.div_i32, if_neg h0, if_pos (by decide)] at hu
    exact .inl ⟨by rw [hz, neg_zero, ite_self], by rw [← pure_inj hu, F192.fval_zero]⟩
  · have hmin : a ≠ -2 ^ 31 := by
      rintro rfl
      exact (min_throw hz hx).2 hu
    obtain ⟨s, m, e, hm, he, nz, rfl, h⟩ := F192.mk_of_not_zero hx hz
    have hA : a.natAbs < 2147483648 := by unfold IsI32 at ha; omega
    obtain ⟨m', k, g1, -, -, g2, g3⟩ := F192.div_i32_d (e := e) hm nz h0 hA
    rw [hu] at g2
    by_cases hk : k ≤ e
    · rw [if_pos hk] at g2
      have g3 := g3 hk
      rw [div_eq_mul_one_div] at g3
      exact .inr ⟨_, m, e, m', e - k, hm, g1, by rw [h, sgn_prod], pure_inj g2, g3⟩
    · rw [if_neg hk] at g2
      injection g2 with g2; cases g2

private theorem natAbs_pos' {a : Int} (h : a ≠ 0) : (0 : ℚ) < a.natAbs := by
  exact_mod_cast Int.natAbs_pos.2 h

/-- C85: the product with an `i32` keeps the order if the `i32` is not negative, and reverses it otherwise. -/
theorem C85_mul_i32_mono {x y u v : F192} {a : Int} (hx : FValid x) (hy : FValid y) (ha : IsI32 a)
    (hl : fval x ≤ fval y) (hu : F192.mul_i32 x a = pure u) (hv : F192.mul_i32 y a = pure v) :
    (0 ≤ a → fval u ≤ fval v) ∧ (a ≤ 0 → fval v ≤ fval u) := by
  by_cases h0 : a = 0
  · subst h0
    have key : ∀ x, F192.mul_i32 x 0 = pure ZERO := fun x => by
      rw [F192.mul_i32, if_pos (by simp)]
    rw [key] at hu hv
    rw [← pure_inj hu, ← pure_inj hv]
    exact ⟨fun _ => le_rfl, fun _ => le_rfl⟩
  · have c := mul_cut ha h0 hx hu
    have d := mul_cut ha h0 hy hv
    refine ⟨fun h => ?_, fun h => ?_⟩
    · rw [if_neg (by omega)] at c d
      exact Cut.mono (natAbs_pos' h0) c d hl
    · rw [if_pos (by omega)] at c d
      exact Cut.mono (natAbs_pos' h0) d c (neg_le_neg hl)

/-- C85: the quotient by an `i32` keeps the order if the `i32` is positive, and reverses it if it is negative. -/
theorem C85_div_i32_mono {x y u v : F192} {a : Int} (hx : FValid x) (hy : FValid y) (ha : IsI32 a)
    (hl : fval x ≤ fval y) (hu : F192.div_i32 x a = pure u) (hv : F192.div_i32 y a = pure v) :
    (0 < a → fval u ≤ fval v) ∧ (a < 0 → fval v ≤ fval u) := by
  refine ⟨fun h => ?_, fun h => ?_⟩
  · have c := div_cut ha h.ne' hx hu
    have d := div_cut ha h.ne' hy hv
    rw [if_neg (by omega)] at c d
    exact Cut.mono (one_div_pos.2 (natAbs_pos' h.ne')) c d hl
  · have c := div_cut ha h.ne hx hu
    have d := div_cut ha h.ne hy hv
    rw [if_pos h] at c d
    exact Cut.mono (one_div_pos.2 (natAbs_pos' h.ne)) d c (neg_le_neg hl)

private theorem fpos {x : F192} (hx : FValid x) (h : F192.lt ZERO x = true) : 0 < fval x := by
  have := ((C39_ops (x := ZERO) (by decide) hx).1).1 h
  rwa [F192.fval_zero] at this

/-- The numbers e, π and 1: their sums are rounded in different ways, as only `π + 1` has an exponent above that of π. -/
example : ∃ u v, F192.add F192.E F192.ONE = pure u ∧ F192.add F192.PI F192.ONE = pure v ∧ fval u ≤ fval v := by
  have e := fpos (x := F192.E) (by decide) (by decide)
  have p := fpos (x := F192.PI) (by decide) (by decide)
  have o := fpos (x := F192.ONE) (by decide) (by decide)
  obtain ⟨u, hu, -⟩ := C41_add_same (x := F192.E) (y := F192.ONE) (by decide) (by decide) (mul_pos e o).le (by decide) (by decide) (by decide) (by decide)
  obtain ⟨v, hv, -⟩ := C41_add_same (x := F192.PI) (y := F192.ONE) (by decide) (by decide) (mul_pos p o).le (by decide) (by decide) (by decide) (by decide)
  exact ⟨u, v, hu, hv, C85_add_mono_partial (by decide) (by decide) (by decide) (fle (by decide) (by decide) (by decide)) (mul_pos e o) (mul_pos p o) hu hv⟩

example : ∃ u v, F192.mul_i32 (F192.neg F192.ONE) 7 = pure u ∧ F192.mul_i32 ⟨2 ^ 126, 2 ^ 48 - 127⟩ 7 = pure v ∧ fval u ≤ fval v := by
  obtain ⟨u, hu⟩ : ∃ u, F192.mul_i32 (F192.neg F192.ONE) 7 = pure u := by
    obtain ⟨u, hu, -⟩ := C41_mul_i32_partial (x := F192.neg F192.ONE) (a := 7) (by decide) (by unfold IsI32; norm_num) (by norm_num) (.inl (by decide)) (by decide) (by decide)
    exact ⟨u, hu⟩
  obtain ⟨v, hv⟩ : ∃ v, F192.mul_i32 ⟨2 ^ 126, 2 ^ 48 - 127⟩ 7 = pure v := by
    obtain ⟨u, hu, -⟩ := C41_mul_i32_partial (x := ⟨2 ^ 126, 2 ^ 48 - 127⟩) (a := 7) (by decide) (by unfold IsI32; norm_num) (by norm_num) (.inl (by decide)) (by decide) (by decide)
    exact ⟨u, hu⟩
  exact ⟨u, v, hu, hv, (C85_mul_i32_mono (by decide) (by decide) (by unfold IsI32; norm_num) (fle (by decide) (by decide) (by decide)) hu hv).1 (by norm_num)⟩

example : ∃ u v, F192.div_i32 (F192.neg F192.PI) (-7) = pure u ∧ F192.div_i32 F192.E (-7) = pure v ∧ fval v ≤ fval u := by
  obtain ⟨u, hu, -⟩ := C41_div_i32_partial (x := F192.neg F192.PI) (a := -7) (by decide) (by unfold IsI32; norm_num) (by norm_num) (by norm_num) (.inl (by decide))
  obtain ⟨v, hv, -⟩ := C41_div_i32_partial (x := F192.E) (a := -7) (by decide) (by unfold IsI32; norm_num) (by norm_num) (by norm_num) (.inl (by decide))
  exact ⟨u, v, hu, hv, (C85_div_i32_mono (by decide) (by decide) (by unfold IsI32; norm_num) (fle (by decide) (by decide) (by decide)) hu hv).2 (by norm_num)⟩

example : ∃ u v, F192.add F192.ZERO F192.E = pure u ∧ F192.add F192.ONE F192.PI = pure v ∧ fval u ≤ fval v := by
  have e := fpos (x := F192.E) (by decide) (by decide)
  have p := fpos (x := F192.PI) (by decide) (by decide)
  have o := fpos (x := F192.ONE) (by decide) (by decide)
  obtain ⟨u, hu, -⟩ := C41_add_same (x := ZERO) (y := F192.E) (by decide) (by decide) (by rw [F192.fval_zero, zero_mul]) (by decide) (by decide) (by decide) (by decide)
  obtain ⟨v, hv, -⟩ := C41_add_same (x := F192.ONE) (y := F192.PI) (by decide) (by decide) (mul_pos o p).le (by decide) (by decide) (by decide) (by decide)
  exact ⟨u, v, hu, hv, C85_add_mono_nonneg_partial (by decide) (by decide) (by decide) (by decide) F192.fval_zero.ge e.le (by rw [F192.fval_zero]; exact o.le)
    (fle (by decide) (by decide) (by decide)) hu hv⟩

/-- C85: for numbers of different signs the sums may be in the wrong order: `-1/4 < -2^-130`, but `-1/4 + 1` is `3/4` and `-2^-130 + 1` is `-1/2`. -/
theorem C85_add_counterexample : ∃ x y z u v, FValid x ∧ FValid y ∧ FValid z ∧ fval z = 1 ∧ fval x < fval y ∧ fval y < 0 ∧
    F192.add x z = pure u ∧ F192.add y z = pure v ∧ fval v = -1 / 2 ∧ 0 < fval u := by
  refine ⟨⟨2 ^ 127, 2 ^ 48 - 129⟩, ⟨2 ^ 127, 2 ^ 48 - 257⟩, ⟨0, 2 ^ 48 - 127⟩, ⟨2 ^ 126, 2 ^ 48 - 128⟩, ⟨2 ^ 127, 2 ^ 48 - 128⟩, by decide, by decide, by decide,
    C41_sub_counterexample.2.1, ((C39_ops (by decide) (by decide)).1).1 (by decide), ?_, (F192.addE_c _ _).ret (by decide +kernel),
    (F192.addE_c _ _).ret (by decide +kernel), C41_sub_counterexample.2.2.2, fpos (by decide) (by decide)⟩
  exact lt_of_lt_of_eq (((C39_ops (y := ZERO) (by decide) (by decide)).1).1 (by decide)) F192.fval_zero

/-- C85: the approximate logarithm is monotone in the magnitude of the number, for numbers from `2^(-2^39)` to `2^(2^39)`. Missing are other
exponents, which are seen modulo `2^40`. -/
theorem C85_fast_log2_mono_partial {x y : F192} (hx : FValid x) (hy : FValid y) (h1 : -2 ^ 39 ≤ lead x) (h2 : lead y < 2 ^ 39) (hl : |fval x| ≤ |fval y|) :
    ∃ L K : Int, F192.fast_log2 x = pure L ∧ F192.fast_log2 y = pure K ∧ L ≤ K := by
  obtain ⟨s, m, e, hm, he, rfl⟩ := F192.exists_mk hx
  obtain ⟨s', m', e', hm', he', rfl⟩ := F192.exists_mk hy
  simp only [lead, F192.mk_exp] at h1 h2
  norm_num at h1 h2
  have p := F192.mg_pos (e := e) hm
  have p' := F192.mg_pos (e := e') hm'
  have ee : e ≤ e' := by
    by_contra hc
    have lt := F192.mg_lt_of_exp hm' hm (not_le.1 hc)
    rw [F192.fval_mk hm (F192.nz_exp (by omega)), abs_mul, F192.abs_sgn, one_mul, abs_of_pos p] at hl
    rcases F192.fval_cases (s := s') (e := e') hm' with ⟨-, -, -, h⟩ | ⟨-, h⟩
    · rw [h, abs_zero] at hl; linarith
    · rw [h, abs_mul, F192.abs_sgn, one_mul, abs_of_pos p'] at hl; linarith
  rw [F192.fval_mk hm (F192.nz_exp (by omega)), F192.fval_mk hm' (F192.nz_exp (by omega)), abs_mul, abs_mul, F192.abs_sgn, F192.abs_sgn, one_mul, one_mul,
    abs_of_pos p, abs_of_pos p'] at hl
  obtain ⟨i1, g1⟩ := F192.fast_log2_eq (s := s) (e := e) hm ⟨by omega, by omega⟩
  obtain ⟨i2, g2⟩ := F192.fast_log2_eq (s := s') (e := e') hm' ⟨by omega, by omega⟩
  refine ⟨_, _, g1, g2, ?_⟩
  rcases Nat.lt_or_ge e e' with hlt | hge
  · obtain ⟨L, l1, -, l2, -⟩ := F192.fast_log2_c (s := s) (e := e) hm ⟨by omega, by omega⟩
    rw [g1] at l1
    have hL := pure_int l1
    have : (0 : Int) ≤ F192.tab F192.LOG_TABLE ((m' - 170141183460469231731687303715884105728) / 2 ^ 116) := Int.natCast_nonneg _
    omega
  · obtain rfl := le_antisymm ee hge
    rw [F192.mg_eq, F192.mg_eq] at hl
    have hmm : m ≤ m' := by exact_mod_cast le_of_mul_le_mul_right hl (F192.ulp_pos _)
    have := F192.tab_mono F192.log_step (Nat.div_le_div_right (Nat.sub_le_sub_right hmm _)) i2
    omega

/-- C85: the approximate power of two is monotone. -/
theorem C85_fast_pow2_mono {n k : Int} (h1 : -2 ^ 63 ≤ n) (h2 : k < 2 ^ 63) (h : n ≤ k) :
    ∃ z w, F192.fast_pow2 n = pure z ∧ F192.fast_pow2 k = pure w ∧ fval z ≤ fval w := by
  norm_num at h1 h2
  obtain ⟨-, a1, e, a2, a3, -⟩ := F192.fast_pow2_eq (n := n) h1 (by omega) rfl
  obtain ⟨i2, b1, f, b2, b3, -⟩ := F192.fast_pow2_eq (n := k) (by omega) h2 rfl
  refine ⟨_, _, a3, b3, (F192.fval_mono a1 b1 ?_).1⟩
  rcases Nat.lt_or_ge e f with hlt | hge
  · exact (F192.mg_lt_of_exp a1 b1 hlt).le
  · have ef : e = f := by omega
    have := F192.tab_mono F192.pow_step (i := (n % 16777216).toNat / 2 ^ 13) (Nat.div_le_div_right (by omega)) i2
    rw [ef, F192.mg_eq, F192.mg_eq]
    exact mul_le_mul_of_nonneg_right (by exact_mod_cast Nat.mul_le_mul_right _ this) (F192.ulp_pos _).le

/-- e and -π -/
example : ∃ L K : Int, F192.fast_log2 F192.E = pure L ∧ F192.fast_log2 (F192.neg F192.PI) = pure K ∧ L ≤ K := by
  refine C85_fast_log2_mono_partial (by decide) (by decide) (by decide) (by decide) ?_
  have e := fpos (x := F192.E) (by decide) (by decide)
  have p := fpos (x := F192.PI) (by decide) (by decide)
  have n : fval (F192.neg F192.PI) = -fval F192.PI := (C59_sign_partial (x := F192.PI) (by decide) (by decide)).2.2.2.1
  rw [n, abs_neg, abs_of_pos e, abs_of_pos p]
  exact fle (by decide) (by decide) (by decide)

/-- `2^-0.5` and `2^0.25` -/
example : ∃ z w, F192.fast_pow2 (-8388608) = pure z ∧ F192.fast_pow2 4194304 = pure w ∧ fval z ≤ fval w :=
  C85_fast_pow2_mono (by norm_num) (by norm_num) (by norm_num)

end Props
end Hmath
