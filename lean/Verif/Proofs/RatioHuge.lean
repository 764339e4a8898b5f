import Verif.Proofs.RatioPrintVal

/-!
# Decimal text of huge and tiny numbers
-/

namespace Hmath
namespace Ratio
open Props (Parses)

/-! ## powers of ten -/

/-- `10^e` -/
noncomputable def p10 (e : ℚ) : ℝ := Real.exp ((e : ℝ) * Real.log 10)

theorem p10_pos (e : ℚ) : 0 < p10 e := Real.exp_pos _

theorem p10_mid (x y : ℚ) : p10 ((x + y) / 2) * p10 ((x + y) / 2) = p10 x * p10 y := by
  rw [p10, p10, p10, ← Real.exp_add, ← Real.exp_add]
  congr 1
  push_cast
  ring

theorem one_le_p10 {e : ℚ} (h : 0 ≤ e) : 1 ≤ p10 e := by
  rw [p10]
  refine Real.one_le_exp (mul_nonneg (by exact_mod_cast h) (Real.log_nonneg (by norm_num)))

theorem p10_mono {x y : ℚ} (h : x ≤ y) : p10 x ≤ p10 y := by
  rw [p10, p10]
  refine Real.exp_le_exp.2 (mul_le_mul_of_nonneg_right (by exact_mod_cast h) (Real.log_nonneg (by norm_num)))

theorem p10_zero : p10 0 = 1 := by rw [p10]; simp
theorem p10_one : p10 1 = 10 := by rw [p10]; simp [Real.exp_log]

/-- `s` is `10^e · 2^32` from below -/
structure Low (s : Nat) (e : ℚ) (ε : ℝ) : Prop where
  one : 4294967296 ≤ s
  le : (s : ℝ) ≤ p10 e * 4294967296
  ge : p10 e * 4294967296 * (1 - ε) ≤ s

theorem Low.mono {s : Nat} {e : ℚ} {ε ε' : ℝ} (h : Low s e ε) (h' : ε ≤ ε') : Low s e ε' :=
  ⟨h.one, h.le, le_trans (mul_le_mul_of_nonneg_left (by linarith) (mul_nonneg (p10_pos e).le (by norm_num))) h.ge⟩

theorem Low.mid {s b : Nat} {x y : ℚ} {ε : ℝ} (h0 : 0 ≤ x) (h1 : 0 ≤ y) (hε : ε ≤ 1) (hs : Low s x ε) (hb : Low b y ε) :
    Low (Nat.sqrt (s * b)) ((x + y) / 2) (ε + 1 / 4294967296) := by
  have u1 : Nat.sqrt (s * b) * Nat.sqrt (s * b) ≤ s * b := Nat.sqrt_le _
  have u2 : s * b < (Nat.sqrt (s * b) + 1) * (Nat.sqrt (s * b) + 1) := Nat.lt_succ_sqrt _
  have u3 : 4294967296 ≤ Nat.sqrt (s * b) := Nat.le_sqrt.2 (Nat.mul_le_mul hs.one hb.one)
  generalize Nat.sqrt (s * b) = m at *
  have hm1 := one_le_p10 (e := (x + y) / 2) (by linarith)
  have e := p10_mid x y
  obtain ⟨P, hP⟩ : ∃ P, p10 ((x + y) / 2) = P := ⟨_, rfl⟩
  have v1 : (m : ℝ) * m ≤ s * b := by exact_mod_cast u1
  have v2 : (s : ℝ) * b < (m + 1) * (m + 1) := by exact_mod_cast u2
  have px := p10_pos x
  have py := p10_pos y
  have s0 : (0 : ℝ) ≤ s := Nat.cast_nonneg _
  have b0 : (0 : ℝ) ≤ b := Nat.cast_nonneg _
  rw [hP] at e hm1
  refine ⟨u3, ?_, ?_⟩
  · rw [hP]
    refine le_of_pow_le_pow_left₀ (n := 2) (by norm_num) (by positivity) ?_
    calc (m : ℝ) ^ 2 = m * m := sq _
      _ ≤ s * b := v1
      _ ≤ (p10 x * 4294967296) * (p10 y * 4294967296) := mul_le_mul hs.le hb.le b0 (by positivity)
      _ = (P * 4294967296) ^ 2 := by rw [mul_mul_mul_comm, ← e]; ring
  · rw [hP]
    have hlow : P * 4294967296 * (1 - ε) < m + 1 := by
      refine lt_of_pow_lt_pow_left₀ 2 (by positivity) ?_
      calc (P * 4294967296 * (1 - ε)) ^ 2 = (p10 x * 4294967296 * (1 - ε)) * (p10 y * 4294967296 * (1 - ε)) := by
            have : (p10 x * 4294967296 * (1 - ε)) * (p10 y * 4294967296 * (1 - ε)) = (p10 x * p10 y) * (4294967296 * (1 - ε)) ^ 2 := by ring
            rw [this, ← e]; ring
        _ ≤ s * b := mul_le_mul hs.ge hb.ge (mul_nonneg (by positivity) (by linarith)) s0
        _ < (m + 1) ^ 2 := by rw [sq]; exact v2
    have : P * 4294967296 * (1 - (ε + 1 / 4294967296)) = P * 4294967296 * (1 - ε) - P := by ring
    rw [this]
    linarith

theorem sqrt_prod_c {s b : Nat} (h1 : 4294967296 ≤ s) (h2 : 4294967296 ≤ b) (h3 : s ≤ 42949672960) (h4 : b ≤ 42949672960) :
    BigI.sqrt (ofInt ((s : Int) * b)) = pure (ofInt ((Nat.sqrt (s * b) : Nat) : Int)) := by
  have l1 : (ofNat (s * b)).length = 3 := by
    have g1 : (ofNat (s * b)).length ≤ 3 := by
      rw [length_ofNat_le_iff (by norm_num)]
      nlinarith
    have g2 : 2 < (ofNat (s * b)).length := by
      rw [length_ofNat_gt_iff (by norm_num)]
      nlinarith
    omega
  have hs : UBig.sqrt (ofNat (s * b)) = pure (ofNat (Nat.sqrt (s * b))) := by
    refine UBig.sqrt_c _ ?_
    rw [UBig.topPart, l1]
    refine (Nat.div_le_div_right (Nat.mul_le_mul h3 h4)).trans_lt ?_
    norm_num
  have e : ((s : Int) * b).natAbs = s * b := by rw [Int.natAbs_mul, Int.natAbs_natCast, Int.natAbs_natCast]
  rw [BigI.sqrt, BigI.mag_ofInt, e, hs, pure_bind]
  refine congrArg pure (BigI.from_ubi_c (by simp) ?_)
  intro h0
  rw [BigI.neg_ofInt]
  have : ¬ ((s : Int) * b < 0) := not_lt.2 (by positivity)
  simp [this]

theorem exp10Loop_c {f : ℚ} (k : Nat) : ∀ {s b : Nat} {x y : ℚ} {ε : ℝ}, Low s x ε → Low b y ε → 0 ≤ x → x ≤ f → f ≤ y → y ≤ 1 →
    ε + k / 4294967296 ≤ 1 →
    ∃ (s' : Nat) (x' : ℚ) (st : Exp10), exp10Loop (ofRat f) k ⟨ofInt s, ofRat x, ofInt b, ofRat y⟩ = pure st ∧ st.small = ofInt s' ∧
      Low s' x' (ε + k / 4294967296) ∧ x' ≤ f ∧ f - x' ≤ (y - x) / 2 ^ k := by
  induction k with
  | zero =>
    intro s b x y ε hs hb h0 h1 h2 h3 h4
    exact ⟨s, x, _, rfl, rfl, by simpa using hs, h1, by simpa using h2⟩
  | succ k ih =>
    intro s b x y ε hs hb h0 h1 h2 h3 h4
    push_cast at h4
    have hk : (0 : ℝ) ≤ k := Nat.cast_nonneg _
    have hm := Low.mid h0 (by linarith) (by linarith [div_nonneg (by linarith : (0 : ℝ) ≤ k + 1) (by norm_num : (0 : ℝ) ≤ 4294967296)]) hs hb
    have up : ∀ {s : Nat} {x : ℚ}, Low s x ε → x ≤ 1 → s ≤ 42949672960 := by
      intro s x h hx
      have := h.le.trans (mul_le_mul_of_nonneg_right (p10_mono hx) (by norm_num))
      rw [p10_one] at this
      norm_num at this
      exact_mod_cast this
    have e4 : ε + 1 / 4294967296 + k / 4294967296 = ε + ((k + 1 : Nat) : ℝ) / 4294967296 := by push_cast; ring
    have e5 : (y - x) / 2 ^ (k + 1) = (y - x) / 2 / 2 ^ k := by rw [pow_succ]; field_simp
    rw [exp10Loop, BigI.mul_c, pure_bind, sqrt_prod_c hs.one hb.one (up hs (by linarith)) (up hb h3), pure_bind, add_c, pure_bind,
      div_i32_c _ (by unfold IsI32; omega) (by omega) (by omega), pure_bind, lt_c, pure_bind]
    have c2 : ((2 : Int) : ℚ) = 2 := by norm_num
    rw [c2, ← e4, e5]
    by_cases h : (x + y) / 2 < f
    · rw [decide_eq_true h, if_pos rfl]
      obtain ⟨s', x', st, r1, r2, r3, r4, r5⟩ := ih hm (hb.mono (by norm_num)) (by linarith) h.le h2 h3 (by rw [e4]; push_cast; exact h4)
      refine ⟨s', x', st, r1, r2, r3, r4, r5.trans (le_of_eq ?_)⟩
      ring
    · rw [decide_eq_false h, if_neg (by decide)]
      obtain ⟨s', x', st, r1, r2, r3, r4, r5⟩ := ih (hs.mono (by norm_num)) hm h0 h1 (not_lt.1 h) (by linarith) (by rw [e4]; push_cast; exact h4)
      refine ⟨s', x', st, r1, r2, r3, r4, r5.trans (le_of_eq ?_)⟩
      ring

theorem exp10_c {f : ℚ} (h0 : 0 ≤ f) (h1 : f < 1) : ∃ s : Nat, exp10 (ofRat f) = pure (s : Int) ∧ 4294967296 ≤ s ∧ s < 42949672960 ∧
    (s : ℝ) ≤ p10 f * 4294967296 ∧ p10 f * 4294967296 * (1 - 1 / 2 ^ 26) ≤ s := by
  have l0 : Low 4294967296 0 0 := ⟨le_refl _, by rw [p10_zero]; norm_num, by rw [p10_zero]; norm_num⟩
  have l1 : Low 42949672960 1 0 := ⟨by norm_num, by rw [p10_one]; norm_num, by rw [p10_one]; norm_num⟩
  obtain ⟨s, x, st, r1, r2, r3, r4, r5⟩ := exp10Loop_c 32 l0 l1 (le_refl _) h0 h1.le (le_refl _) (by norm_num)
  obtain ⟨b1, b2, -⟩ := log_ten_bounds
  have hle : (s : ℝ) ≤ p10 f * 4294967296 := r3.le.trans (mul_le_mul_of_nonneg_right (p10_mono r4) (by norm_num))
  have hlt : s < 42949672960 := by
    have h2 : p10 f < 10 := by
      rw [← p10_one, p10, p10, Real.exp_lt_exp]
      refine mul_lt_mul_of_pos_right (by exact_mod_cast h1) b2
    have h3 : (s : ℝ) < 42949672960 := by linarith
    exact_mod_cast h3
  refine ⟨s, ?_, r3.one, hlt, hle, ?_⟩
  · have e1 : (⟨[0, 1], false⟩ : BigI) = ofInt ((4294967296 : Nat) : Int) := by
      have hv : Valid [0, 1] := by decide
      have : val [0, 1] = 4294967296 := by norm_num [val, Nat.ofDigits_cons]
      rw [this.symm, ofInt, Int.natAbs_natCast, ← hv.eq_ofNat]
      rw [decide_eq_false (by omega)]
    have e2 : BigI.shift_left (ofInt 10) 1 = ofInt ((42949672960 : Nat) : Int) := by rw [BigI.shift_left_c]; norm_num
    rw [exp10, BigI.from_i32_c (by unfold IsI32; omega) (by omega), pure_bind, e1, e2, zero_c, one_c, r1, pure_bind, r2, BigI.to_i64_c,
      pure_bind, if_pos (by omega)]
    rfl
  · refine le_trans ?_ r3.ge
    have h5 : (f : ℝ) - x ≤ 1 / 2 ^ 32 := by
      have : ((f - x : ℚ) : ℝ) ≤ ((1 - 0) / 2 ^ 32 : ℚ) := by exact_mod_cast r5
      push_cast at this
      norm_num at this ⊢
      linarith
    have h6 : p10 f * (1 - 3 / 2 ^ 32) ≤ p10 x := by
      have : p10 x = p10 f * Real.exp (-(((f : ℝ) - x) * Real.log 10)) := by
        rw [p10, p10, ← Real.exp_add]; congr 1; ring
      rw [this]
      refine mul_le_mul_of_nonneg_left ?_ (p10_pos f).le
      have := Real.add_one_le_exp (-(((f : ℝ) - x) * Real.log 10))
      have h7 : ((f : ℝ) - x) * Real.log 10 ≤ 1 / 2 ^ 32 * 2.31 := mul_le_mul h5 b1.le b2.le (by norm_num)
      norm_num at *
      linarith
    have pf := p10_pos f
    push_cast
    norm_num at *
    nlinarith

/-- exponent and fraction of the logarithm: the floor and what is left -/
theorem hugeParts_c {D : Int} (hD : est10 D ≠ 0) : hugeParts (ofInt D) = pure (ofInt ⌊(D * 21306 / 303984900308992 : ℚ)⌋,
    ofRat (D * 21306 / 303984900308992 - ⌊(D * 21306 / 303984900308992 : ℚ)⌋)) := by
  generalize hL : (D * 21306 / 303984900308992 : ℚ) = L
  rw [hugeParts, BigI.from_i64_c (by omega) (by omega), pure_bind, BigI.mul_i32_c (by unfold IsI32; omega) (by omega), pure_bind,
    from_dn_c (q := L) (by omega) (by rw [← hL]; push_cast; rfl), pure_bind, truncate_and_frac_c, pure_bind]
  simp only [BigI.is_neg_c, is_zero_c]
  rcases le_or_gt 0 L with h | h
  · rw [qtrunc_nonneg L h, decide_eq_false (not_lt.2 (Int.floor_nonneg.2 h))]
    rfl
  · rw [qtrunc_nonpos L h.le]
    by_cases hi : L - ⌈L⌉ = 0
    · have e : ⌊L⌋ = ⌈L⌉ := by
        have : L = ⌈L⌉ := by linarith
        conv_lhs => rw [this]
        exact Int.floor_intCast _
      rw [decide_eq_true hi, e]
      simp
    · have hlt : L < ⌈L⌉ := lt_of_le_of_ne (Int.le_ceil L) (fun h => hi (by linarith))
      have e : ⌊L⌋ = ⌈L⌉ - 1 := by
        rw [Int.floor_eq_iff]
        push_cast
        have := Int.ceil_lt_add_one L
        exact ⟨by linarith, by linarith⟩
      have hneg : ⌈L⌉ < 0 := by
        have h1 : est10 D < 0 := by
          rcases lt_or_gt_of_ne hD with h1 | h1
          · exact h1
          · exfalso
            have h2 := (est10_pos h1).1
            have h3 : (D * 21306 : ℚ) < 0 := by
              rw [← hL, div_lt_iff₀ (by norm_num)] at h
              linarith
            have h4 : D * 21306 < 0 := by exact_mod_cast h3
            omega
        have h2 := est10_neg h1
        have h3 : (D * 21306 : ℚ) ≤ -303984900308992 := by
          have : D * 21306 ≤ -303984900308992 := by omega
          exact_mod_cast this
        have h4 : ⌈L⌉ ≤ -1 := by
          rw [Int.ceil_le, ← hL, div_le_iff₀ (by norm_num)]
          push_cast
          linarith
        omega
      rw [decide_eq_true hneg, decide_eq_false hi]
      simp only [Bool.not_false, Bool.and_self, if_true]
      rw [BigI.sub_i32_mut_c (by unfold IsI32; omega) (by omega), pure_bind, abs_mut_c, one_c, sub_c, pure_bind, e,
        abs_of_neg (by linarith)]
      congr 3
      push_cast
      ring

theorem hugeParts_bounds (D : Int) : 0 ≤ (D * 21306 / 303984900308992 : ℚ) - ⌊(D * 21306 / 303984900308992 : ℚ)⌋ ∧
    (D * 21306 / 303984900308992 : ℚ) - ⌊(D * 21306 / 303984900308992 : ℚ)⌋ < 1 :=
  ⟨by linarith [Int.floor_le (D * 21306 / 303984900308992 : ℚ)], by linarith [Int.lt_floor_add_one (D * 21306 / 303984900308992 : ℚ)]⟩

/-- the digits of the four leading places -/
def hugeTail (d : Nat) : List Nat := UBig.strip0 [d / 100 % 10, d / 10 % 10, d % 10]

theorem hugeTail_facts {d : Nat} (h : d < 1000) : (∀ e ∈ hugeTail d, e < 10) ∧ fv (hugeTail d) = d / 1000 := by
  constructor
  · intro e he
    have := UBig.mem_strip0 he
    simp only [List.mem_cons, List.not_mem_nil, or_false] at this
    omega
  · rw [hugeTail, fv_strip0]
    simp only [fv]
    have e : 100 * (d / 100 % 10) + 10 * (d / 10 % 10) + d % 10 = d := by omega
    have e' : (100 * (d / 100 % 10 : Nat) + 10 * (d / 10 % 10 : Nat) + (d % 10 : Nat) : ℚ) = d := by exact_mod_cast e
    rw [← e']
    ring

theorem hugeDigits_tail : ∀ d < 1000,
    (if d = 0 then [] else if d % 100 = 0 then '.' :: Nat.toDigits 10 (d / 100)
      else if d % 10 = 0 then '.' :: padL 2 (Nat.toDigits 10 (d / 10)) else '.' :: padL 3 (Nat.toDigits 10 d))
      = (if (hugeTail d).map Nat.digitChar = [] then [] else '.' :: (hugeTail d).map Nat.digitChar) := by
  decide +kernel

/-- four decimal places of `V / 10^6`, rounded up if not more than seven millionths are missing -/
def hugeRound (V : Nat) : Nat := (if V % 1000 > 992 then V + (1000 - V % 1000) else V) / 1000

theorem hugeRound_bounds (V : Nat) : 1000 * hugeRound V ≤ V + 7 ∧ V ≤ 1000 * hugeRound V + 992 := by
  unfold hugeRound
  split <;> omega

theorem hugeDigits_eq (V : Nat) : hugeDigits V = Nat.toDigits 10 (hugeRound V / 1000) ++
    (if (hugeTail (hugeRound V % 1000)).map Nat.digitChar = [] then [] else '.' :: (hugeTail (hugeRound V % 1000)).map Nat.digitChar) := by
  rw [← hugeDigits_tail _ (Nat.mod_lt _ (by norm_num)), hugeDigits]
  change (if hugeRound V % 1000 = 0 then _ else if hugeRound V % 100 = 0 then _ else if hugeRound V % 10 = 0 then _ else _) = _
  change (if hugeRound V % 1000 = 0 then Nat.toDigits 10 (hugeRound V / 1000) else if hugeRound V % 100 = 0 then
    Nat.toDigits 10 (hugeRound V / 1000) ++ '.' :: Nat.toDigits 10 (hugeRound V / 100 % 10) else if hugeRound V % 10 = 0 then
    Nat.toDigits 10 (hugeRound V / 1000) ++ '.' :: padL 2 (Nat.toDigits 10 (hugeRound V % 1000 / 10)) else
    Nat.toDigits 10 (hugeRound V / 1000) ++ '.' :: padL 3 (Nat.toDigits 10 (hugeRound V % 1000))) = _
  generalize hugeRound V = d
  have e1 : d % 1000 % 100 = d % 100 := by omega
  have e2 : d % 1000 % 10 = d % 10 := by omega
  have e3 : d % 1000 / 100 = d / 100 % 10 := by omega
  rw [e1, e2, e3]
  split_ifs <;> simp

/-- the four leading digits of `10^f` -/
def Lead (d : Nat) (f : ℚ) : Prop :=
  p10 f * (1 - 994 / 10 ^ 6) ≤ (d : ℝ) / 1000 ∧ (d : ℝ) / 1000 ≤ p10 f * (1 + 7 / 10 ^ 6)

theorem hugeText_c {D : Int} (hD : est10 D ≠ 0) (hb : |D| < 2 ^ 64) (neg : Prop) [Decidable neg] :
    ∃ (d : Nat) (e : Int) (f : ℚ), e + f = D * 21306 / 303984900308992 ∧ 1000 ≤ d ∧ d ≤ 10000 ∧ Lead d f ∧ -2 ^ 31 < e ∧ e < 2 ^ 31 ∧
      hugeText (ofInt D) (if neg then ['-'] else []) = pure ((if neg then ['-'] else []) ++ (Nat.toDigits 10 (d / 1000) ++
        (if (hugeTail (d % 1000)).map Nat.digitChar = [] then [] else '.' :: (hugeTail (d % 1000)).map Nat.digitChar)) ++ expText e) := by
  obtain ⟨f0, f1⟩ := hugeParts_bounds D
  have hparts := hugeParts_c hD
  have hef : ((⌊(D * 21306 / 303984900308992 : ℚ)⌋ : Int) : ℚ) + (D * 21306 / 303984900308992 - ⌊(D * 21306 / 303984900308992 : ℚ)⌋)
      = D * 21306 / 303984900308992 := by ring
  have he : -2 ^ 31 < ⌊(D * 21306 / 303984900308992 : ℚ)⌋ ∧ ⌊(D * 21306 / 303984900308992 : ℚ)⌋ < 2 ^ 31 := by
    obtain ⟨c1, c2⟩ := abs_lt.1 hb
    have c1' : (-2 ^ 64 : ℚ) < D := by exact_mod_cast c1
    have c2' : (D : ℚ) < 2 ^ 64 := by exact_mod_cast c2
    constructor
    · rw [Int.lt_iff_add_one_le, Int.le_floor, le_div_iff₀ (by norm_num)]
      push_cast
      linarith
    · rw [Int.floor_lt, div_lt_iff₀ (by norm_num)]
      push_cast
      linarith
  generalize (D * 21306 / 303984900308992 : ℚ) - ⌊(D * 21306 / 303984900308992 : ℚ)⌋ = f at *
  generalize ⌊(D * 21306 / 303984900308992 : ℚ)⌋ = e at *
  obtain ⟨s, s1, s2, s3, s4, s5⟩ := exp10_c f0 f1
  obtain ⟨V, hV⟩ : ∃ V, V = s * 1000000 / 4294967296 := ⟨_, rfl⟩
  have v1 : 1000000 ≤ V := by omega
  have v2 : V < 10000000 := by omega
  have hr := hugeRound_bounds V
  refine ⟨hugeRound V, e, f, hef, by omega, by omega, ?_, he.1, he.2, ?_⟩
  · have w1 : (V : ℝ) * 4294967296 ≤ s * 1000000 := by
      have : V * 4294967296 ≤ s * 1000000 := by omega
      exact_mod_cast this
    have w2 : (s : ℝ) * 1000000 < (V + 1) * 4294967296 := by
      have : s * 1000000 < (V + 1) * 4294967296 := by omega
      exact_mod_cast this
    have w3 : (1000 : ℝ) * hugeRound V ≤ V + 7 := by exact_mod_cast hr.1
    have w4 : (V : ℝ) ≤ 1000 * hugeRound V + 992 := by exact_mod_cast hr.2
    have hp := one_le_p10 f0
    constructor <;> norm_num at * <;> linarith
  · have ht : qtrunc (((s : Int) : ℚ) / ((4294967296 : Int) : ℚ) * ((1000000 : Int) : ℚ)) = V := by
      rw [qtrunc_nonneg _ (by positivity), Int.floor_eq_iff]
      have w1 : (V : ℚ) * 4294967296 ≤ s * 1000000 := by
        have : V * 4294967296 ≤ s * 1000000 := by omega
        exact_mod_cast this
      have w2 : (s : ℚ) * 1000000 < (V + 1) * 4294967296 := by
        have : s * 1000000 < (V + 1) * 4294967296 := by omega
        exact_mod_cast this
      push_cast
      constructor <;> linarith
    have hlen : (ofNat e.natAbs).length ≤ B32 := by
      refine le_trans ((length_ofNat_le_iff (k := 1) (by norm_num)).2 ?_) (by norm_num)
      rw [pow_one]
      omega
    rw [hugeText, hparts, pure_bind]
    simp only []
    rw [s1, pure_bind, BigI.from_i64_c (by omega) (by omega), pure_bind, BigI.from_i64_c (by omega) (by omega), pure_bind,
      from_dn_c (by omega) rfl, pure_bind, mul_i32_c _ (by unfold IsI32; omega) (by omega), pure_bind, truncate_bi_c, pure_bind,
      ht, BigI.to_i32_c, pure_bind, if_pos (by omega), unwrapR_ok, pure_bind, to_string_dec_c e hlen, pure_bind,
      Int.toNat_natCast, hugeDigits_eq, i64Str_expText]

theorem log_p10 (f : ℚ) : Real.log (p10 f) = f * Real.log 10 := by rw [p10, Real.log_exp]

theorem lead_log {d : Nat} {f : ℚ} (h : Lead d f) : |Real.log ((d : ℝ) / 1000) - f * Real.log 10| ≤ 9955 / 10 ^ 7 := by
  have hp := p10_pos f
  obtain ⟨h1, h2⟩ := h
  have hd : (0 : ℝ) < (d : ℝ) / 1000 := lt_of_lt_of_le (mul_pos hp (by norm_num)) h1
  have g1 := Real.log_le_log (mul_pos hp (by norm_num)) h1
  have g2 := Real.log_le_log hd h2
  rw [Real.log_mul hp.ne' (by norm_num), log_p10] at g1 g2
  have g3 := Real.log_le_sub_one_of_pos (show (0 : ℝ) < 1 + 7 / 10 ^ 6 by norm_num)
  have g4 := Real.one_sub_inv_le_log_of_pos (show (0 : ℝ) < 1 - 994 / 10 ^ 6 by norm_num)
  rw [abs_le]
  norm_num at *
  constructor <;> linarith

theorem est_log {c : ℚ} {D : Int} (h : EstOk c D) :
    |((D * 21306 / 303984900308992 : ℚ) : ℝ) * Real.log 10 - Real.log c| ≤ 1 / 10 ^ 8 + 19 / 10 ^ 11 * |Real.log c| := by
  obtain ⟨h1, h2⟩ := h
  obtain ⟨l1, l2⟩ := log_two_ten
  obtain ⟨b1, b2, b3, b4⟩ := log_ten_bounds
  have a2 := Real.log_two_gt_d9
  generalize hx : Real.log c = x at *
  generalize Real.log 2 = a at *
  generalize hb : Real.log 10 = b at *
  have l1' : 0 < 70777 * a - 21306 * b := by linarith
  have l2' : 70777 * a - 21306 * b < 4e-6 * b := by norm_num; linarith
  push_cast
  have e : (D : ℝ) * 21306 / 303984900308992 * b = D * a / 2 ^ 32 - D * a / 2 ^ 32 * ((70777 * a - 21306 * b) / (70777 * a)) := by
    field_simp
    ring
  have r1 : 0 ≤ (70777 * a - 21306 * b) / (70777 * a) := by positivity
  have r2 : (70777 * a - 21306 * b) / (70777 * a) ≤ 189 / 10 ^ 12 := by
    rw [div_le_iff₀ (by positivity)]
    norm_num at *
    linarith
  generalize (70777 * a - 21306 * b) / (70777 * a) = r at *
  rw [e]
  have t1 : |(D : ℝ) * a / 2 ^ 32 - x| ≤ 4 / 10 ^ 10 := by
    rw [abs_le]
    norm_num at *
    constructor <;> linarith
  generalize (D : ℝ) * a / 2 ^ 32 = t at *
  have t2 : |t * r| ≤ |t| * (189 / 10 ^ 12) := by
    rw [abs_mul, abs_of_nonneg r1]
    exact mul_le_mul_of_nonneg_left r2 (abs_nonneg _)
  have t3 : |t| ≤ |t - x| + |x| := by
    calc |t| = |(t - x) + x| := by rw [sub_add_cancel]
      _ ≤ _ := abs_add_le _ _
  have t4 : |t - t * r - x| ≤ |t - x| + |t * r| := by
    have : t - t * r - x = (t - x) - t * r := by ring
    rw [this]
    exact abs_sub _ _
  have hx0 := abs_nonneg x
  have hx1 := abs_nonneg t
  generalize |x| = X at *
  generalize |t| = Y at *
  generalize |t - x| = Z at *
  generalize |t * r| = W at *
  refine t4.trans ?_
  norm_num at t1 t2 t3 ⊢
  linarith

/-- the text of a huge or tiny number and its value -/
theorem huge_c {q : ℚ} {D : Int} (hD : est10 D ≠ 0) (hb : |D| < 2 ^ 64) (hE : EstOk |q| D) (neg : Prop) [Decidable neg] :
    ∃ (t : Str) (v : ℚ), hugeText (ofInt D) (if neg then ['-'] else []) = pure t ∧ Parses t ((if neg then -1 else 1) * v) ∧ 0 < v ∧
      |Real.log v - ((D * 21306 / 303984900308992 : ℚ) : ℝ) * Real.log 10| ≤ 9955 / 10 ^ 7 ∧
      |Real.log v - Real.log (|q| : ℚ)| ≤ 1 / 1000 + 2 / 10 ^ 10 * |Real.log (|q| : ℚ)| := by
  obtain ⟨d, e, f, hef, d1, d2, hl, e1, e2, ht⟩ := hugeText_c hD hb neg
  obtain ⟨m1, m2⟩ := hugeTail_facts (Nat.mod_lt d (show 0 < 1000 by norm_num))
  have hp := parses_parts neg (d / 1000) m1 (some e) (by rintro x ⟨⟩; exact ⟨e1, e2⟩) rfl (by
    have g1 : (hugeTail (d % 1000)).length ≤ 3 := by
      have := congrArg List.length (strip0_split [d % 1000 / 100 % 10, d % 1000 / 10 % 10, d % 1000 % 10]).choose_spec
      rw [List.length_append] at this
      unfold hugeTail
      simp only [List.length_cons, List.length_nil] at this ⊢
      omega
    have g2 : (Nat.toDigits 10 (d / 1000)).length ≤ 2 := (Nat.length_toDigits_le_iff (by norm_num) (by norm_num)).2 (by omega)
    have g3 : (Nat.toDigits 10 e.natAbs).length ≤ 10 := (Nat.length_toDigits_le_iff (by norm_num) (by norm_num)).2 (by omega)
    simp only [expText, List.length_append, List.length_cons]
    have g4 : (if (hugeTail (d % 1000)).map Nat.digitChar = [] then ([] : List Char) else '.' :: (hugeTail (d % 1000)).map Nat.digitChar).length ≤ 4 := by
      split <;> simp; omega
    have g5 : (if neg then ['-'] else [] : List Char).length ≤ 1 := by split <;> simp
    have g6 : (if e < 0 then ['-'] else [] : List Char).length ≤ 1 := by split <;> simp
    omega)
  have hv : (((d / 1000 : Nat) : ℚ) + fv (hugeTail (d % 1000))) = d / 1000 := by
    rw [m2]
    have : 1000 * (d / 1000) + d % 1000 = d := by omega
    have h : (1000 * (d / 1000 : Nat) + (d % 1000 : Nat) : ℚ) = d := by exact_mod_cast this
    linarith
  rw [hv, Option.getD_some, mul_assoc] at hp
  have dpos : (0 : ℚ) < d := by
    have : 0 < d := by omega
    exact_mod_cast this
  refine ⟨_, _, ht, hp, by positivity, ?_⟩
  have g1 := lead_log hl
  have g2 := est_log hE
  have dr : (0 : ℝ) < d := by exact_mod_cast dpos
  have g3 : Real.log ((d / 1000 * 10 ^ e : ℚ) : ℝ) = Real.log ((d : ℝ) / 1000) + e * Real.log 10 := by
    push_cast
    rw [Real.log_mul (by positivity) (by positivity), Real.log_zpow]
  have g4 : ((D * 21306 / 303984900308992 : ℚ) : ℝ) = e + f := by rw [← hef]; push_cast; rfl
  rw [g4] at g2
  rw [g3, g4]
  refine ⟨by rw [show Real.log ((d : ℝ) / 1000) + e * Real.log 10 - (e + f) * Real.log 10 = Real.log ((d : ℝ) / 1000) - f * Real.log 10 by ring]; exact g1, ?_⟩
  have g5 := abs_nonneg (Real.log (|q| : ℚ))
  have g6 := abs_add_le (Real.log ((d : ℝ) / 1000) - f * Real.log 10) ((e + f) * Real.log 10 - Real.log (|q| : ℚ))
  have g7 : (Real.log ((d : ℝ) / 1000) - f * Real.log 10) + ((e + f) * Real.log 10 - Real.log (|q| : ℚ))
      = Real.log ((d : ℝ) / 1000) + e * Real.log 10 - Real.log (|q| : ℚ) := by ring
  rw [g7] at g6
  refine g6.trans ?_
  generalize |Real.log (|q| : ℚ)| = X at *
  norm_num at g1 g2 ⊢
  linarith

theorem log_two_ten' : 97879 * Real.log 10 < 325147 * Real.log 2 := by
  have h : (10 : Nat) ^ 97879 < 2 ^ 325147 := by decide +kernel
  have h2 : Real.log ((10 : Nat) ^ 97879 : Nat) < Real.log ((2 : Nat) ^ 325147 : Nat) :=
    Real.log_lt_log (by positivity) (by exact_mod_cast h)
  have e : ∀ a x : Nat, Real.log ((a ^ x : Nat) : ℝ) = x * Real.log a := by
    intro a x
    rw [Nat.cast_pow, Real.log_pow]
  rw [e, e] at h2
  exact_mod_cast h2

/-- the constant for the logarithm is too small -/
theorem est_log_low {c : ℚ} {D : Int} (h : EstOk c D) (hc : 2 ^ 31 * Real.log 2 ≤ Real.log c) :
    ((D * 21306 / 303984900308992 : ℚ) : ℝ) * Real.log 10 - Real.log c ≤ -214 / 1000 := by
  obtain ⟨h1, h2⟩ := h
  have l1 := log_two_ten'
  obtain ⟨b1, b2, b3, b4⟩ := log_ten_bounds
  have a2 := Real.log_two_gt_d9
  generalize hx : Real.log c = x at *
  generalize Real.log 2 = a at *
  generalize hb : Real.log 10 = b at *
  have l1' : a / 97879 ≤ 70777 * a - 21306 * b := by linarith
  push_cast
  have e : (D : ℝ) * 21306 / 303984900308992 * b = D * a / 2 ^ 32 - D * a / 2 ^ 32 * ((70777 * a - 21306 * b) / (70777 * a)) := by
    field_simp
    ring
  have r1 : 1443 / 10 ^ 13 ≤ (70777 * a - 21306 * b) / (70777 * a) := by
    rw [le_div_iff₀ (by positivity)]
    norm_num at *
    linarith
  generalize (70777 * a - 21306 * b) / (70777 * a) = r at *
  rw [e]
  have t1 : (D : ℝ) * a / 2 ^ 32 - x ≤ 4 / 10 ^ 10 := by
    norm_num at *
    linarith
  have t2 : 1488 * 10 ^ 6 ≤ (D : ℝ) * a / 2 ^ 32 := by
    norm_num at *
    linarith
  generalize (D : ℝ) * a / 2 ^ 32 = t at *
  have t3 : (1488 * 10 ^ 6) * (1443 / 10 ^ 13) ≤ t * r := mul_le_mul t2 r1 (by norm_num) (by linarith)
  norm_num at *
  linarith

end Ratio
end Hmath
