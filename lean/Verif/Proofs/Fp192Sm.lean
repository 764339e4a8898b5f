import Verif.Proofs.Fp192Small
import Verif.Model.Fp192Funcs

/-!
# Small positive numbers
-/

namespace Hmath
namespace F192

/-- zero, or positive with an exponent field of at most `E` -/
def Sm (E : Int) (c : F192) : Prop := c = ZERO ∨ ∃ m e, Nrm m ∧ ¬Z false m e ∧ c = mk' false m e ∧ (e : Int) ≤ E

theorem sm_of {E : Int} {m e : Nat} (h : Nrm m) (he : (e : Int) ≤ E) : Sm E (mk' false m e) := by
  by_cases hz : Z false m e
  · left
    obtain ⟨-, h2, h3⟩ := hz
    rw [h2, h3]
    rfl
  · exact Or.inr ⟨m, e, h, hz, rfl, he⟩

theorem sm_mul {E F : Int} {c q : F192} (hc : Sm E c) (hq : Sm F q) (h : E + F < 18446744073709551616) :
    ∃ z, F192.mul c q = pure z ∧ Sm (E + F + 128 - 281474976710656) z := by
  rcases hc with rfl | ⟨m, e, h1, z1, rfl, h2⟩
  · exact ⟨ZERO, by rw [F192.mul, show F192.is_zero ZERO = true from rfl, Bool.true_or, if_pos rfl], Or.inl rfl⟩
  rcases hq with rfl | ⟨n, f, g1, z2, rfl, g2⟩
  · exact ⟨ZERO, by rw [F192.mul, show F192.is_zero ZERO = true from rfl, Bool.or_true, if_pos rfl], Or.inl rfl⟩
  by_cases hE : 281474976710656 ≤ e + f
  · obtain ⟨k, i, a1, -, -, -, a2, a3, -⟩ := F192.mul_c (a := false) (b := false) h1 g1 z1 z2 hE (show e + f < 18446744073709551616 by omega)
    exact ⟨_, a3, sm_of a1 (by omega)⟩
  · exact ⟨_, (F192.mul_flush h1 g1 z1 z2 (by omega)).1, Or.inl rfl⟩

theorem prodSign_pos {a : Int} (h : 0 < a) : prodSign false a = false := by
  simp [prodSign, h.le]

theorem sm_mul_i32 {E : Int} {c : F192} {a : Int} (hc : Sm E c) (ha : 0 < a) (ha' : a < 2147483648) (h : E + 32 < 18446744073709551616) :
    Panics (F192.mul_i32 c a) ∨ ∃ z, F192.mul_i32 c a = pure z ∧ Sm (E + 32) z := by
  rcases hc with rfl | ⟨m, e, h1, z1, rfl, h2⟩
  · exact Or.inr ⟨ZERO, by rw [F192.mul_i32, show F192.is_zero ZERO = true from rfl, Bool.true_or, if_pos rfl], Or.inl rfl⟩
  rcases F192.mul_i32_d (a := a) h1 z1 (by omega) (by omega) (show e + 32 < 18446744073709551616 by omega) with ⟨g, -⟩ | ⟨k, i, g1, -, g2, g3, -⟩
  · exact Or.inl ⟨_, g⟩
  · rw [prodSign_pos ha] at g3
    exact Or.inr ⟨_, g3, sm_of g1 (by omega)⟩

theorem sm_div_i32 {E : Int} {c : F192} {a : Int} (hc : Sm E c) (ha : 0 < a) (ha' : a < 2147483648) :
    Panics (F192.div_i32 c a) ∨ ∃ z, F192.div_i32 c a = pure z ∧ Sm E z := by
  rcases hc with rfl | ⟨m, e, h1, z1, rfl, h2⟩
  · exact Or.inr ⟨ZERO, by rw [F192.div_i32, if_neg (by omega), show F192.is_zero ZERO = true from rfl, if_pos rfl], Or.inl rfl⟩
  obtain ⟨k, i, g1, -, -, g2, -⟩ := F192.div_i32_d (e := e) (a := a) h1 z1 (by omega) (by omega)
  rw [prodSign_pos ha] at g2
  rw [g2]
  by_cases hi : i ≤ e
  · rw [if_pos hi]
    exact Or.inr ⟨_, rfl, sm_of g1 (by omega)⟩
  · rw [if_neg hi]
    exact Or.inl ⟨_, rfl⟩

theorem sm_add {m e : Nat} {E : Int} {c : F192} (h : Nrm m) (hz : ¬Z false m e) (hc : Sm E c) (hE : E + 128 ≤ e) :
    F192.add (mk' false m e) c = pure (mk' false m e) := by
  have g1 : F192.is_zero (mk' false m e) = false := by rw [F192.is_zero_mk h]; exact decide_eq_false hz
  rcases hc with rfl | ⟨n, f, g1', z, rfl, g2⟩
  · rw [F192.add, F192.is_neg_mk h, show F192.is_neg ZERO = false from rfl, if_neg (by decide), g1, if_neg (by decide), if_pos (by decide)]
  have g3 : F192.is_zero (mk' false n f) = false := by rw [F192.is_zero_mk g1']; exact decide_eq_false z
  rw [F192.add, F192.is_neg_mk h, F192.is_neg_mk g1', g1, g3, if_neg (by decide), if_neg (by decide), if_neg (by decide), F192.mk_exp, F192.mk_exp,
    if_pos (by omega), F192.addAligned, F192.mk_exp, F192.mk_exp]
  dsimp only
  rw [if_pos (by omega)]

theorem mul_low {E F : Int} {c q z : F192} (hc : Sm E c) (hq : Sm F q) (h : E + F < 18446744073709551616) (hz : F192.mul c q = pure z) :
    z = ZERO ∨ 127 ≤ z.exp := by
  rcases hc with rfl | ⟨m, e, h1, z1, rfl, h2⟩
  · rw [F192.mul, show F192.is_zero ZERO = true from rfl, Bool.true_or, if_pos rfl] at hz
    exact Or.inl (Except.ok.inj (Option.some.inj hz)).symm
  rcases hq with rfl | ⟨n, f, g1, z2, rfl, g2⟩
  · rw [F192.mul, show F192.is_zero ZERO = true from rfl, Bool.or_true, if_pos rfl] at hz
    exact Or.inl (Except.ok.inj (Option.some.inj hz)).symm
  by_cases hE : 281474976710656 ≤ e + f
  · obtain ⟨k, i, a1, -, -, a4, a2, a3, -⟩ := F192.mul_c (a := false) (b := false) h1 g1 z1 z2 hE (show e + f < 18446744073709551616 by omega)
    rw [a3] at hz
    rw [← (Except.ok.inj (Option.some.inj hz)), F192.mk_exp]
    omega
  · rw [(F192.mul_flush h1 g1 z1 z2 (by omega)).1] at hz
    exact Or.inl (Except.ok.inj (Option.some.inj hz)).symm

theorem div_low {E : Int} {c : F192} {a : Int} (hc : Sm E c) (ha : 0 < a) (ha' : a < 2147483648) (hl : c = ZERO ∨ 127 ≤ c.exp) :
    ∃ z, F192.div_i32 c a = pure z ∧ Sm E z := by
  rcases hc with rfl | ⟨m, e, h1, z1, rfl, h2⟩
  · exact ⟨ZERO, by rw [F192.div_i32, if_neg (by omega), show F192.is_zero ZERO = true from rfl, if_pos rfl], Or.inl rfl⟩
  obtain ⟨k, i, g1, gi, -, g2, -⟩ := F192.div_i32_d (e := e) (a := a) h1 z1 (by omega) (by omega)
  have he : i ≤ e := by
    rcases hl with hl | hl
    · have : F192.is_zero (mk' false m e) = true := by rw [hl]; rfl
      rw [F192.is_zero_mk h1] at this
      exact absurd (of_decide_eq_true this) z1
    · rw [F192.mk_exp] at hl
      omega
  rw [prodSign_pos ha, if_pos he] at g2
  exact ⟨_, g2, sm_of g1 (by omega)⟩

/-- the loop of `pow2` leaves one alone -/
theorem pow2Loop_tiny {u : F192} {E : Int} (hu : Sm E u) (hE : E + 128 ≤ 281474976710529) : ∀ n i q, 0 < i → n + i ≤ 15 → Sm E q →
    ∃ r, pow2Loop u n i ONE q = pure (ONE, r) ∧ Sm E r := by
  intro n
  induction n with
  | zero => exact fun _ q _ _ hq => ⟨q, rfl, hq⟩
  | succ n ih =>
    intro i q h0 hi hq
    have h1 : add ONE q = pure ONE := sm_add (m := 170141183460469231731687303715884105728) (e := 281474976710529) ⟨by norm_num, by norm_num⟩ (nz_exp (by norm_num)) hq hE
    obtain ⟨a, a1, a2⟩ := sm_mul hq hu (by omega)
    obtain ⟨b, b1, b2⟩ := div_low (a := i) a2 (by omega) (by omega) (mul_low hq hu (by omega) a1)
    obtain ⟨r, r1, r2⟩ := ih (i + 1) b (by omega) (by omega) (by
      rcases b2 with h | ⟨m, e, g1, g2, g3, g4⟩
      · exact Or.inl h
      · exact Or.inr ⟨m, e, g1, g2, g3, by omega⟩)
    refine ⟨r, ?_, r2⟩
    rw [pow2Loop, h1, pure_bind, a1, pure_bind, b1, pure_bind, r1]

end F192
end Hmath
