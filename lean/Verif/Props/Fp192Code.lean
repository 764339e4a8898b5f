import Verif.Proofs.Fp192Code
import Verif.Props.Fp192Print

/-!
# C65: the 13 character code of 192-bit floating point numbers
-/

namespace Hmath
namespace Props

open F192 (mk' mg ulp sgn Nrm Z ZERO ONE)

/-- a digit or a letter (ASCII) -/
def Alnum (c : Nat) : Prop := 48 ≤ c ∧ c ≤ 57 ∨ 65 ≤ c ∧ c ≤ 90 ∨ 97 ≤ c ∧ c ≤ 122

instance (c : Nat) : Decidable (Alnum c) := by unfold Alnum; infer_instance

/-- Every string of 1 to 13 digits and letters without leading zeros is the code of the number it decodes to. -/
theorem C65_code13_decode {s : List Nat} (h0 : s ≠ []) (h13 : s.length ≤ 13) (ha : ∀ c ∈ s, Alnum c)
    (hz : s.length = 1 ∨ s.head? ≠ some 48) :
    ∃ x, F192.from_code13 s = .ok x ∧ FValid x ∧ F192.into_code13 x = pure (.ok s) := by
  by_cases h : F192.is_code13_zero s = true
  · have hs : s = F192.code13_zero := by simpa [F192.is_code13_zero, F192.code13_zero] using h
    exact ⟨ZERO, by rw [F192.from_code13, if_pos h], by decide, by rw [hs]; rfl⟩
  · rw [Bool.not_eq_true] at h
    obtain ⟨e, d, h1, h2, h3, h4⟩ := F192.from_alnum h h0 h13 ha
    have b1 : F192.BASE ≤ d + F192.BASE := Nat.le_add_left _ _
    have b2 : d + F192.BASE < F192.BASE * 2 := by omega
    refine ⟨_, h3, ?_, ?_⟩
    · obtain ⟨-, c1, c2⟩ := F192.codeExp_inv h1
      obtain ⟨g, hg⟩ : ∃ g : Nat, (g : Int) = F192.expOf e - 64 + 281474976710656 := ⟨(F192.expOf e - 64 + 281474976710656).toNat, by omega⟩
      obtain ⟨hN, n1, n2, n3, -⟩ := F192.codeNumber_c h1 b1 b2 hg
      rw [n1]
      exact F192.valid_mk hN (by omega)
    · rw [F192.into_number h1 b1 b2, Nat.add_sub_cancel, h4, F192.codeStrip_pad h0 hz]

/-- "abcd0123abcd1" -/
example : ∃ x, F192.from_code13 [97, 98, 99, 100, 48, 49, 50, 51, 97, 98, 99, 100, 49] = .ok x ∧ FValid x ∧
    F192.into_code13 x = pure (.ok [97, 98, 99, 100, 48, 49, 50, 51, 97, 98, 99, 100, 49]) :=
  C65_code13_decode (by decide) (by decide) (by decide) (by decide)

/-- All other strings are rejected. -/
theorem C65_code13_reject (s : List Nat) : F192.from_code13 [] = .error .noData ∧
    (13 < s.length → ∃ c, F192.from_code13 s = .error (.invalidChar c)) ∧
    (s.length ≤ 13 → (∃ c ∈ s, ¬Alnum c) → ∃ c ∈ s, ¬Alnum c ∧ F192.from_code13 s = .error (.invalidChar (Char.ofNat c))) := by
  refine ⟨rfl, fun h => ?_, fun h hc => ?_⟩
  · refine ⟨Char.ofNat (s.getD 13 0), ?_⟩
    rw [F192.from_code13, if_neg, if_neg (by omega)]
    intro hz
    have hs : s = F192.code13_zero := by simpa [F192.is_code13_zero, F192.code13_zero] using hz
    rw [hs] at h
    exact absurd h (by decide)
  · obtain ⟨c, c1, c2⟩ := hc
    obtain ⟨c', d1, d2, d3⟩ := F192.codeVals_err (s := List.replicate (13 - s.length) 48 ++ s) ⟨c, List.mem_append_right _ c1, c2⟩
    refine ⟨c', ?_, d2, ?_⟩
    · rcases List.mem_append.1 d1 with d1 | d1
      · rw [List.mem_replicate] at d1
        exact absurd (by rw [d1.2]; decide) d2
      · exact d1
    · rw [F192.from_code13, if_neg, if_pos h, if_neg, d3]
      · intro hn
        rw [List.isEmpty_iff] at hn
        rw [hn] at c1
        simp at c1
      · intro hz
        have hs : s = F192.code13_zero := by simpa [F192.is_code13_zero, F192.code13_zero] using hz
        rw [hs] at c1
        exact absurd c1 (by
          intro hm
          have : ∀ c ∈ F192.code13_zero, Alnum c := by decide
          exact c2 (this c hm))

/-- "!!!" -/
example : ∃ c ∈ [33, 33, 33], ¬Alnum c ∧ F192.from_code13 [33, 33, 33] = .error (.invalidChar (Char.ofNat c)) :=
  (C65_code13_reject _).2.2 (by decide) ⟨33, by decide, by decide⟩

private theorem ulp_up {g : Nat} {k : ℤ} (h : (g : ℤ) - 281474976710656 ≤ k) : ulp g ≤ 2 ^ k := by
  unfold F192.ulp
  exact zpow_le_zpow_right₀ (by norm_num) (by norm_num; omega)

private theorem ulp_lo {g : Nat} {k : ℤ} (h : k ≤ (g : ℤ) - 281474976710656) : 2 ^ k ≤ ulp g := by
  unfold F192.ulp
  exact zpow_le_zpow_right₀ (by norm_num) (by norm_num; omega)

private theorem zp (k : ℤ) (n : Nat) : (2 : ℚ) ^ (k + n) = 2 ^ k * 2 ^ n := by
  rw [zpow_add₀ (by norm_num), zpow_natCast]

/-- if `v` is near `D * u` and `u ≤ t` then `v` is less than `2^66 t` -/
private theorem near_up {D : Nat} {u t v : ℚ} (hD : D < F192.BASE * 2) (hu : 0 < u) (hut : u ≤ t) (hv : |D * u - v| * (2 * (F192.BASE : ℚ)) ≤ v) :
    v < t * 2 ^ 66 := by
  have hD' : (D : ℚ) ≤ 52036560683837093888 := by
    have : D ≤ 52036560683837093888 := by unfold F192.BASE at hD; omega
    exact_mod_cast this
  have h1 : v - D * u ≤ |D * u - v| := by rw [abs_sub_comm]; exact le_abs_self _
  rw [show (F192.BASE : ℚ) = 26018280341918546944 by norm_num [F192.BASE]] at hv
  have h2 : (D : ℚ) * u ≤ 52036560683837093888 * t := mul_le_mul hD' hut hu.le (by norm_num)
  have ht : 0 < t := lt_of_lt_of_le hu hut
  norm_num at hv ⊢
  nlinarith

private theorem near_lo {D : Nat} {u t v : ℚ} (hD : F192.BASE ≤ D) (ht : 0 < t) (hut : t ≤ u) (hv : |D * u - v| * (2 * (F192.BASE : ℚ)) ≤ v) :
    t * 26018280341918546000 < v := by
  have hD' : (26018280341918546944 : ℚ) ≤ D := by
    have : 26018280341918546944 ≤ D := hD
    exact_mod_cast this
  have h1 : D * u - v ≤ |D * u - v| := le_abs_self _
  rw [show (F192.BASE : ℚ) = 26018280341918546944 by norm_num [F192.BASE]] at hv
  have h2 : 26018280341918546944 * t ≤ (D : ℚ) * u := mul_le_mul hD' hut ht.le (by linarith)
  norm_num at hv ⊢
  nlinarith

private theorem gap_hi {t v : ℚ} (ht : 0 < t) (h1 : t * 26018280341918546000 < v) (h2 : v ≤ t * 2 ^ 64) : False := by
  norm_num at h2
  linarith

private theorem gap_base {u t v : ℚ} (hu : 0 < u) (hut : u ≤ t) (hv : |(F192.BASE : ℚ) * u - v| * (2 * (F192.BASE : ℚ)) ≤ v) (h : t * 2 ^ 65 ≤ v) : False := by
  rw [show (F192.BASE : ℚ) = 26018280341918546944 by norm_num [F192.BASE]] at hv
  have h1 : v - 26018280341918546944 * u ≤ |26018280341918546944 * u - v| := by rw [abs_sub_comm]; exact le_abs_self _
  norm_num at hv h
  linarith

/-- From `2^-1920` to `2^1923` the code decodes to a number nearby: the relative error is at most `1 / (2 * 62^10 * 31)`. -/
theorem C65_code13_encode {x : F192} (hx : FValid x) (h1 : 2 ^ (-1920 : ℤ) ≤ |fval x|) (h2 : |fval x| ≤ 2 ^ (1923 : ℤ)) :
    ∃ s y, F192.into_code13 x = pure (.ok s) ∧ s ≠ [] ∧ s.length ≤ 13 ∧ (∀ c ∈ s, Alnum c) ∧ F192.from_code13 s = .ok y ∧ FValid y ∧
      |fval y - fval x| ≤ |fval x| / (2 * (62 ^ 10 * 31)) := by
  have h0 : fval x ≠ 0 := by
    intro hc
    rw [hc, _root_.abs_zero] at h1
    exact absurd h1 (not_le.2 (zpow_pos (by norm_num) _))
  obtain ⟨s, m, e, hm, hb, hz, rfl, hv⟩ := F192.mk_of_not_zero hx h0
  have hab : |fval (mk' s m e)| = mg m e := by
    rw [hv, abs_mul, F192.abs_sgn, one_mul, abs_of_pos (F192.mg_pos hm)]
  rw [hab] at h1 h2 ⊢
  obtain ⟨d1, d2, g, g1, g2, g3, g4⟩ := F192.codeRnd_c hm (e := e) rfl
  have hpos := F192.ulp_pos g
  -- exponent range
  have lo : 281474976710656 ≤ g + 1985 := by
    by_contra hc
    have := near_up d2 hpos (ulp_up (k := -1986) (by omega)) g4
    rw [show (-1920 : ℤ) = -1986 + (66 : Nat) by norm_num, zp] at h1
    linarith
  have hi : g ≤ 281474976710656 + 1858 := by
    by_contra hc
    have := near_lo d1 (zpow_pos (by norm_num) _) (ulp_lo (k := 1859) (by omega)) g4
    rw [show (1923 : ℤ) = 1859 + (64 : Nat) by norm_num, zp] at h2
    exact gap_hi (zpow_pos (by norm_num) _) this h2
  rw [F192.into_eq hm hz (by omega)]
  generalize hp : F192.codeRnd (m / 2 ^ F192.codeCut m) ((e : Int) - 281474976710656 + F192.codeCut m + 5) = p at *
  obtain ⟨D, Y⟩ := p
  simp only at d1 d2 g1 g4
  obtain ⟨x1, x2, x3⟩ := F192.expOf_inv (X := Y + 64) (by omega) (by omega) s
  have hnz : F192.is_code13_zero (F192.codeStrip (F192.codeDigits (F192.codeExp (Y + 64) s) (D - F192.BASE))) = false := by
    rw [Bool.eq_false_iff]
    intro hc
    obtain ⟨k1, k2⟩ := F192.digits_zero x3 (by omega) hc
    rw [k1] at x1
    have hY : Y = -1985 := by
      rw [show F192.expOf 7684 = -1921 by decide] at x1; omega
    have hD : D = F192.BASE := by omega
    subst hD
    have hut := ulp_up (g := g) (k := -1985) (by omega)
    rw [show (-1920 : ℤ) = -1985 + (65 : Nat) by norm_num, zp] at h1
    exact gap_base hpos hut g4 h1
  obtain ⟨p1, p2, p3⟩ := F192.pad_strip (F192.codeDigits (F192.codeExp (Y + 64) s) (D - F192.BASE)) (by simp [F192.codeDigits])
  have hfrom := F192.from_digits x3 (by omega) hnz
  rw [Nat.sub_add_cancel d1] at hfrom
  obtain ⟨n1, n2, n3, n4, n5⟩ := F192.codeNumber_c x3 d1 d2 (g := g) (by rw [x1]; omega)
  refine ⟨_, _, ?_, p1, p2, ?_, hfrom, ?_, ?_⟩
  · rw [F192.codeOut]
    simp only []
    rw [if_neg (by omega), if_neg (by omega)]
  · intro c hc
    exact F192.alnum_digits x3 (d := D - F192.BASE) (by omega) c (by rw [← p3]; exact List.mem_append_right _ hc)
  · rw [n2]; exact F192.valid_mk n1 (by omega)
  · have hlz := F192.lz_code d1 d2
    rw [n2, F192.fval_mk n1 (F192.nz_exp (by omega)), hv, x2, n5, ← mul_sub, abs_mul, F192.abs_sgn, one_mul, le_div_iff₀ (by norm_num)]
    refine le_trans (le_of_eq ?_) g4
    norm_num [F192.BASE]

example : ∃ s y, F192.into_code13 ONE = pure (.ok s) ∧ s ≠ [] ∧ s.length ≤ 13 ∧ (∀ c ∈ s, Alnum c) ∧
    F192.from_code13 s = .ok y ∧ FValid y ∧ |fval y - fval ONE| ≤ |fval ONE| / (2 * (62 ^ 10 * 31)) := by
  refine C65_code13_encode (by decide) ?_ ?_ <;> rw [show fval ONE = 1 from F192.fval_one false, abs_one, ← zpow_zero (2 : ℚ)] <;>
    exact zpow_le_zpow_right₀ (by norm_num) (by norm_num)

/-- Below `2^-1921` the code is that of zero; from `2^1924` up to about `2^(2^33)` there is no code. -/
theorem C65_code13_range_partial {x : F192} (hx : FValid x) :
    (|fval x| ≤ 2 ^ (-1921 : ℤ) → ∃ s, F192.into_code13 x = pure (.ok s) ∧ F192.from_code13 s = .ok ZERO) ∧
    (2 ^ (1924 : ℤ) ≤ |fval x| → x.exp ≤ 2 ^ 48 + 2 ^ 33 → F192.into_code13 x = pure (.error .notInRange)) := by
  by_cases h0 : fval x = 0
  · rw [h0, _root_.abs_zero]
    refine ⟨fun _ => ?_, fun h => absurd h (not_le.2 (zpow_pos (by norm_num) _))⟩
    obtain rfl := (F192.fval_eq_zero hx).1 h0
    exact ⟨F192.code13_zero, rfl, rfl⟩
  obtain ⟨s, m, e, hm, hb, hz, rfl, hv⟩ := F192.mk_of_not_zero hx h0
  have hab : |fval (mk' s m e)| = mg m e := by
    rw [hv, abs_mul, F192.abs_sgn, one_mul, abs_of_pos (F192.mg_pos hm)]
  rw [hab]
  obtain ⟨d1, d2, g, g1, g2, g3, g4⟩ := F192.codeRnd_c hm (e := e) rfl
  have hpos := F192.ulp_pos g
  constructor
  · intro h
    have hi : g + 1985 < 281474976710656 := by
      by_contra hc
      have := near_lo d1 (zpow_pos (by norm_num) _) (ulp_lo (k := -1985) (by omega)) g4
      rw [show (-1921 : ℤ) = -1985 + (64 : Nat) by norm_num, zp] at h
      exact gap_hi (zpow_pos (by norm_num) _) this h
    refine ⟨F192.code13_zero, ?_, rfl⟩
    rw [F192.into_eq hm hz (by omega), F192.codeOut, if_pos (by omega)]
  · intro h he
    change e ≤ 2 ^ 48 + 2 ^ 33 at he
    have lo : 281474976710656 + 1859 ≤ g := by
      by_contra hc
      have := near_up d2 hpos (ulp_up (k := 1858) (by omega)) g4
      rw [show (1924 : ℤ) = 1858 + (66 : Nat) by norm_num, zp] at h
      linarith
    obtain ⟨t, ds, y, ht, -⟩ := C69_text_partial hx h0 ⟨by rw [F192.mk_exp]; norm_num; omega, he⟩
    rw [F192.into_eq hm hz (by omega), F192.codeOut, if_neg (by omega), if_pos (by omega), ht, pure_bind]

example : FValid (mk' false (2 ^ 127) (2 ^ 48 + 2000)) ∧ 2 ^ (1924 : ℤ) ≤ |fval (mk' false (2 ^ 127) (2 ^ 48 + 2000))| ∧
    (mk' false (2 ^ 127) (2 ^ 48 + 2000)).exp ≤ 2 ^ 48 + 2 ^ 33 := by
  have hN : Nrm (2 ^ 127) := by constructor <;> norm_num
  refine ⟨F192.valid_mk hN (by norm_num), ?_, by rw [F192.mk_exp]; norm_num⟩
  rw [F192.fval_mk hN (F192.nz_exp (by norm_num)), abs_mul, F192.abs_sgn, one_mul, abs_of_pos (F192.mg_pos hN), F192.mg]
  have h1 := ulp_lo (g := 2 ^ 48 + 2000) (k := 1924) (by norm_num)
  have h2 := F192.ulp_pos (2 ^ 48 + 2000)
  exact h1.trans (le_mul_of_one_le_left h2.le (by norm_num))

private theorem range_panic_c {N : Nat} (hN : 1924 ≤ N) (h : ∃ x, FValid x ∧ (2 : ℚ) ^ N ≤ fval x ∧ x.exp ≤ 2 ^ 48 + 2 ^ 34 ∧
    F192.to_approx_string x = throw .overflow) : ∃ x, FValid x ∧ (2 : ℚ) ^ (1924 : ℤ) ≤ |fval x| ∧ F192.into_code13 x = throw .overflow := by
  obtain ⟨x, hx, h1, h2, h3⟩ := h
  have hle : (2 : ℚ) ^ (1924 : ℤ) ≤ fval x := le_trans (by exact_mod_cast pow_le_pow_right₀ (by norm_num) hN) h1
  have hpos : 0 < fval x := lt_of_lt_of_le (by positivity) hle
  refine ⟨x, hx, by rwa [abs_of_pos hpos], ?_⟩
  obtain ⟨s, m, e, hm, hb, hz, rfl, hv⟩ := F192.mk_of_not_zero hx hpos.ne'
  have hab : |fval (mk' s m e)| = mg m e := by
    rw [hv, abs_mul, F192.abs_sgn, one_mul, abs_of_pos (F192.mg_pos hm)]
  rw [abs_of_pos hpos] at hab
  rw [hab] at hle
  change e ≤ 2 ^ 48 + 2 ^ 34 at h2
  obtain ⟨d1, d2, g, g1, g2, g3, g4⟩ := F192.codeRnd_c hm (e := e) rfl
  have lo : 281474976710656 + 1859 ≤ g := by
    by_contra hc
    have := near_up d2 (F192.ulp_pos g) (ulp_up (k := 1858) (by omega)) g4
    rw [show (1924 : ℤ) = 1858 + (66 : Nat) by norm_num, zp] at hle
    linarith
  rw [F192.into_eq hm hz (by omega), F192.codeOut, if_neg (by omega), if_pos (by omega), h3]
  rfl

/-- What is missing: near `10^(2^32)`, where printing panics (C69_panic_counterexample), `into_code13` panics instead of returning the
error, as the error value holds the number as text. -/
theorem C65_code13_panic_counterexample : ∃ x, FValid x ∧ (2 : ℚ) ^ (1924 : ℤ) ≤ |fval x| ∧ F192.into_code13 x = throw .overflow :=
  range_panic_c (by norm_num) C69_panic_counterexample

private instance : DecidableEq (M (Except ConvErr (List Nat))) := inferInstanceAs (DecidableEq (Option (Except Panic (Except ConvErr (List Nat)))))

/-- Also missing: for the largest exponents the sign of the exponent is lost, and the code is that of zero. -/
theorem C65_code13_counterexample : ∃ x, FValid x ∧ (2 : ℚ) ^ (1924 : ℤ) ≤ |fval x| ∧
    F192.into_code13 x = pure (.ok [122, 121, 48, 48, 48, 48, 48, 48, 48, 48, 48, 48, 48]) := by
  have hN : Nrm (2 ^ 127) := by constructor <;> norm_num
  refine ⟨mk' false (2 ^ 127) (2 ^ 63 + 2 ^ 49), F192.valid_mk hN (by norm_num), ?_, by decide +kernel⟩
  rw [F192.fval_mk hN (F192.nz_exp (by norm_num)), abs_mul, F192.abs_sgn, one_mul, abs_of_pos (F192.mg_pos hN), F192.mg]
  have h1 := ulp_lo (g := 2 ^ 63 + 2 ^ 49) (k := 1924) (by norm_num)
  have h2 := F192.ulp_pos (2 ^ 63 + 2 ^ 49)
  have h3 : (1 : ℚ) ≤ ((2 ^ 127 : Nat) : ℚ) := by norm_num
  exact h1.trans (le_mul_of_one_le_left h2.le h3)

/-- Of the exponent fields from `2^63` on, the first `2^48` panic, and all other numbers, which are huge, get the code of zero. -/
theorem C65_code13_high {x : F192} (hx : FValid x) : (2 ^ 63 ≤ x.exp → x.exp < 2 ^ 63 + 2 ^ 48 → Panics (F192.into_code13 x)) ∧
    (2 ^ 63 + 2 ^ 48 ≤ x.exp → F192.into_code13 x = pure (.ok [122, 121, 48, 48, 48, 48, 48, 48, 48, 48, 48, 48, 48])) := by
  obtain ⟨s, m, e, hm, hb, rfl⟩ := F192.exists_mk hx
  rw [F192.mk_exp]
  constructor
  · intro h1 h2
    have hz : ¬F192.Z s m e := F192.nz_exp (by omega)
    refine ⟨.overflow, ?_⟩
    rw [F192.into_code13, F192.is_zero_mk hm, if_neg (by simpa [F192.Z] using hz), F192.expI64_panic (by omega) (by omega)]
    rfl
  · intro h
    have hk : F192.codeCut m ≤ 58 := by unfold F192.codeCut; split <;> omega
    have hr : ∀ r Y, (F192.codeRnd r Y).2 ≤ Y + 1 := by
      intro r Y
      unfold F192.codeRnd
      split
      · split
        · exact le_refl _
        · exact (lt_add_one Y).le
      · exact (lt_add_one Y).le
    have := hr (m / 2 ^ F192.codeCut m) ((e : Int) - 18446744073709551616 - 281474976710656 + F192.codeCut m + 5)
    rw [F192.into_eq' hm (F192.nz_exp (by omega)) (F192.expI64_big (by omega) hb) (by omega) (by omega), F192.codeOut, if_pos (by omega)]
    rfl

example : F192.into_code13 ⟨7, 2 ^ 64 - 5⟩ = pure (.ok [122, 121, 48, 48, 48, 48, 48, 48, 48, 48, 48, 48, 48]) :=
  (C65_code13_high (by decide)).2 (by norm_num)

/-- A positive number above `2^-1921` whose code is that of zero, although it has an exponent in the range of the code. -/
theorem C65_code13_zero_counterexample : ∃ x, FValid x ∧ (2 : ℚ) ^ (-1921 : ℤ) < fval x ∧
    F192.into_code13 x = pure (.ok [122, 121, 48, 48, 48, 48, 48, 48, 48, 48, 48, 48, 48]) ∧
    F192.from_code13 [122, 121, 48, 48, 48, 48, 48, 48, 48, 48, 48, 48, 48] = .ok ZERO := by
  have hN : Nrm (F192.BASE * 2 ^ 63) := by constructor <;> norm_num [F192.BASE]
  refine ⟨mk' false (F192.BASE * 2 ^ 63) (281474976710656 - 2048), F192.valid_mk hN (by norm_num), ?_, by decide +kernel, by decide +kernel⟩
  rw [F192.fval_mk hN (F192.nz_exp (by norm_num)), F192.mg, show sgn false = 1 from rfl, one_mul]
  have h1 := ulp_lo (g := 281474976710656 - 2048) (k := -2048) (by norm_num)
  change _ < _ * ulp (281474976710656 - 2048)
  rw [show (-1921 : ℤ) = -2048 + (127 : Nat) by norm_num, zp]
  have h3 : (2 : ℚ) ^ 127 < ((F192.BASE * 2 ^ 63 : Nat) : ℚ) := by norm_num [F192.BASE]
  have ht : (0 : ℚ) < 2 ^ (-2048 : ℤ) := zpow_pos (by norm_num) _
  generalize (2 : ℚ) ^ (-2048 : ℤ) = t at *
  generalize ulp (281474976710656 - 2048) = u at *
  nlinarith

end Props
end Hmath
