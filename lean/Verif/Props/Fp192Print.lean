import Verif.Proofs.Fp192Print
import Verif.Props.Fp192Str
import Verif.Props.Fp192

/-!
# C69: 192-bit floating point numbers as strings

The grammar of decimal numbers, `DecimalText`, is that of C66 in Verif/Props/Fp192Str.lean.
-/

namespace Hmath
namespace Props

open F192 (mk' mg ulp sgn Nrm Z ZERO)

/-- `|x|` is between about `2^(-2^33)` and `2^(2^33)`, or about `10^(±2.5 * 10^9)`. -/
def PrintRange (x : F192) : Prop := 2 ^ 48 ≤ x.exp + 2 ^ 33 ∧ x.exp ≤ 2 ^ 48 + 2 ^ 33

private theorem filter_digits_of {t : List Char} (h : ∀ c ∈ t, F192.isDigit c = true) (a : Nat) :
    F192.dval t a = F192.bval 10 (digitsOf 10 t) a ∧ t.length = (digitsOf 10 t).length := by
  obtain ⟨h1, h2⟩ := filter_digits t a
  rw [List.filter_eq_self.2 h] at h1 h2
  exact ⟨h2, h1⟩

private theorem decimal_of {s : Str} {v : Nat} {y : Int} {l : Nat} (h : F192.DT s v y l) (neg : Bool) : ∃ ds,
    DecimalText (if neg then '-' :: s else s) neg ds y ∧ digitsVal 10 ds = v ∧ ds.length = l := by
  obtain ⟨ip, fp, ep, x, h1, h2, h3, h4⟩ := h
  have hip : ∀ c ∈ ip, F192.isDigit c = true := by
    rcases h2 with rfl | ⟨c, t, rfl, a1, a2, a3⟩
    · intro c hc
      rw [List.mem_singleton.1 hc]
      decide
    · intro c hc
      rcases List.mem_cons.1 hc with rfl | hc
      · exact a1
      · exact a3 c hc
  have hI : IntPart ip := int_iff.1 (h2.imp id fun ⟨c, t, a0, a1, a2, a3⟩ => ⟨c, t, a0, a1, a2, fun c hc => Or.inl (a3 c hc)⟩)
  have hE : ExpPart ep x := h4.imp id fun ⟨u, a1, a2⟩ => ⟨'e', u, a1, Or.inl rfl, exp_iff.1 a2⟩
  have hs : (if neg then '-' :: s else s) = (if neg then ['-'] else []) ++ ip ++ (fp ++ ep) := by
    rw [h1]
    cases neg <;> simp
  rcases h3 with ⟨rfl, a1, a2, a3⟩ | ⟨t, rfl, a0, a1, a2, a3⟩
  · refine ⟨digitsOf 10 ip, ⟨ip, [], ep, x, hs, hI, Or.inl rfl, hE, by simp [digitsOf], by simpa [digitsOf] using a2⟩, ?_, ?_⟩
    · rw [a1, (filter_digits_of hip 0).1, digitsVal, digitsVal_bval]
    · rw [a3, (filter_digits_of hip 0).2]
  · have hdot : digitsOf 10 ('.' :: t) = digitsOf 10 t := by
      rw [← digitsOf_eq, ← digitsOf_eq]
      rfl
    have hall : ∀ c ∈ ip ++ t, F192.isDigit c = true := fun c hc => (List.mem_append.1 hc).elim (hip c) (a0 c)
    refine ⟨digitsOf 10 ip ++ digitsOf 10 t, ⟨ip, '.' :: t, ep, x, hs, hI, frac_iff.1 (Or.inr ⟨t, rfl, fun c hc => Or.inl (a0 c hc)⟩), hE, by rw [hdot], ?_⟩, ?_, ?_⟩
    · rw [a2, hdot, (filter_digits_of a0 0).2]
    · rw [a1, (filter_digits_of hall 0).1, digitsVal, digitsVal_bval, digitsOf_append]
    · rw [a3, List.length_append, (filter_digits_of a0 0).2, (filter_digits_of hip 0).2]

/-- Zero is printed as `0`. -/
theorem C69_zero : F192.to_approx_string ZERO = pure ['0'] := by
  rw [F192.to_approx_string, if_pos (by decide)]

example : fval ZERO = 0 := F192.fval_zero

private theorem parts {x : F192} (hx : FValid x) (h0 : fval x ≠ 0) : ∃ s m e, x = mk' s m e ∧ Nrm m ∧ |fval x| = mg m e ∧ s = decide (fval x < 0) ∧ x.exp = e := by
  obtain ⟨s, m, e, hm, -, hz, rfl, hv⟩ := F192.mk_of_not_zero hx h0
  have hp := F192.mg_pos (e := e) hm
  refine ⟨s, m, e, rfl, hm, ?_, ?_, rfl⟩
  · rw [hv, abs_mul, F192.abs_sgn, one_mul, abs_of_pos hp]
  · rw [hv]
    cases s <;> simp [sgn] <;> linarith

/-- The text of a number other than zero is a decimal number of at most 21 digits with the sign of `x`.  Its value has a relative
error of at most `2 * 10^-18`; for `|x|` between about `10^-8` and `10^-2` there is an additional error of at most `10^-20`.
This is restricted to numbers of `PrintRange`: C69_large_counterexample, C69_small_counterexample. -/
theorem C69_text_partial {x : F192} (hx : FValid x) (h0 : fval x ≠ 0) (hr : PrintRange x) : ∃ s ds y,
    F192.to_approx_string x = pure s ∧ DecimalText s (decide (fval x < 0)) ds y ∧ ds.length ≤ 21 ∧ |y| ≤ 4 * 10 ^ 9 ∧
    |(digitsVal 10 ds : ℚ) * 10 ^ y - (|fval x|)| ≤
      2 / 10 ^ 18 * |fval x| + if 9 / 10 ^ 9 < |fval x| ∧ |fval x| < 11 / 1000 then 1 / 10 ^ 20 else 0 := by
  obtain ⟨s, m, e, rfl, hm, hv, hs, he⟩ := parts hx h0
  obtain ⟨r1, r2⟩ := hr
  rw [he] at r1 r2
  norm_num at r1 r2
  obtain ⟨k, F, k1, k2, k3, f1, f2, p1, p2⟩ := F192.print_c (s := s) (e := e) hm ⟨by omega, by omega⟩
  have hF := f2 ⟨by omega, by omega⟩
  obtain ⟨hF1, hF2⟩ := abs_le.1 hF
  obtain ⟨t, v, y, l, t1, t2, t3, t4, -, t5⟩ := F192.digitText_c k1 k2 (exp := F) (by omega) (by omega)
  obtain ⟨ds, d1, d2, d3⟩ := decimal_of t2 s
  refine ⟨_, ds, y, by rw [p1, t1, pure_bind], by rw [← hs]; exact d1, by omega, ?_, ?_⟩
  · norm_num
    omega
  rw [hv, d2]
  have hp := F192.mg_pos (e := e) hm
  generalize mg m e = V at *
  generalize (k : ℚ) * 10 ^ F = K at *
  generalize (v : ℚ) * 10 ^ y = W at *
  rw [abs_le] at p2 ⊢
  obtain ⟨p2, p3⟩ := p2
  have hif : (0 : ℚ) ≤ if 9 / 10 ^ 9 < V ∧ V < 11 / 1000 then 1 / 10 ^ 20 else 0 := by split_ifs <;> norm_num
  rcases t5 with rfl | ⟨g1, g2, g3, g4⟩
  · constructor <;> linarith
  · rw [if_pos ⟨by norm_num at *; linarith, by norm_num at *; linarith⟩]
    norm_num at *
    constructor <;> linarith

example : FValid (mk' true (2 ^ 127) (2 ^ 48 - 127)) ∧ fval (mk' true (2 ^ 127) (2 ^ 48 - 127)) = -1 ∧ PrintRange (mk' true (2 ^ 127) (2 ^ 48 - 127)) := by
  have hn : Nrm (2 ^ 127) := ⟨by norm_num, by norm_num⟩
  have hm : mg (2 ^ 127) (281474976710656 - 127) = 1 := by rw [F192.mg_coeff_sub (by norm_num)]; norm_num
  refine ⟨?_, ?_, ?_⟩
  · exact F192.valid_mk hn (by norm_num)
  · rw [F192.fval_mk hn (F192.nz_true)]
    norm_num at hm ⊢
    rw [hm]
    norm_num [sgn]
  · constructor <;> norm_num [F192.mk_exp]

/-- Printing and reading back gives the number again, up to the error of printing. -/
theorem C69_roundtrip_partial {x : F192} (hx : FValid x) (h0 : fval x ≠ 0) (hr : PrintRange x) : ∃ s z,
    F192.to_approx_string x = pure s ∧ F192.from_str s = pure (.ok z) ∧ FValid z ∧
    |fval z - fval x| ≤ 201 / 10 ^ 20 * |fval x| + if 9 / 10 ^ 9 < |fval x| ∧ |fval x| < 11 / 1000 then 11 / 10 ^ 21 else 0 := by
  obtain ⟨s, ds, y, h1, h2, h3, h4, h5⟩ := C69_text_partial hx h0 hr
  obtain ⟨z, z1, z2, z3⟩ := C66_decimal_28 h2 (by omega) (by have := (abs_le.1 h4).1; omega) (by have := (abs_le.1 h4).2; omega)
  refine ⟨s, z, h1, z1, z2, ?_⟩
  have hV : (0 : ℚ) ≤ digitsVal 10 ds * 10 ^ y := by positivity
  have hif : scaleBound y ≤ 1 / 10 ^ 27 := by
    unfold scaleBound
    split_ifs
    · norm_num
    · have : ((|y| : Int) : ℚ) ≤ 4 * 10 ^ 9 := by exact_mod_cast h4
      rw [div_le_iff₀ (by norm_num)]
      norm_num at this ⊢
      linarith
  have z4 := z3.trans (mul_le_mul_of_nonneg_left hif hV)
  have hsg : fval x = (if decide (fval x < 0) then -1 else 1) * |fval x| := by
    rcases lt_or_ge (fval x) 0 with h | h
    · simp [h, abs_of_neg h]
    · simp [not_lt.2 h, abs_of_nonneg h]
  have hsq : |(if decide (fval x < 0) then (-1 : ℚ) else 1)| = 1 := by split_ifs <;> norm_num
  have key : fval z - fval x = (fval z - (if decide (fval x < 0) then -1 else 1) * digitsVal 10 ds * 10 ^ y) +
      (if decide (fval x < 0) then -1 else 1) * (digitsVal 10 ds * 10 ^ y - |fval x|) := by
    conv_lhs => rw [hsg]
    ring
  rw [key]
  refine (abs_add_le _ _).trans ?_
  rw [abs_mul, hsq, one_mul]
  refine (add_le_add_left z4 _).trans ?_
  clear z3 z4 key hsg hsq hif
  have hx0 : 0 ≤ |fval x| := abs_nonneg _
  generalize |fval x| = X at *
  generalize (digitsVal 10 ds : ℚ) * 10 ^ y = W at *
  have h6 := (abs_le.1 h5).2
  split_ifs at h5 h6 ⊢ with hc
  · linarith
  · linarith

/-- The text of `2^-26` is cut after 20 decimals, so that its relative error is more than `10^-13` instead of `2 * 10^-18`. -/
theorem C69_text_counterexample : ∃ x s ds y, FValid x ∧ fval x = 1 / 2 ^ 26 ∧ F192.to_approx_string x = pure s ∧ DecimalText s false ds y ∧
    1 / 10 ^ 13 * fval x < |(digitsVal 10 ds : ℚ) * 10 ^ y - fval x| := by
  have hn : Nrm (2 ^ 127) := ⟨by norm_num, by norm_num⟩
  have hm : mg (2 ^ 127) (281474976710656 - 153) = 1 / 2 ^ 26 := by rw [F192.mg_coeff_sub (by norm_num)]; norm_num
  have hz : ¬Z false (2 ^ 127) (281474976710656 - 153) := F192.nz_exp (by norm_num)
  have hv : fval (mk' false (2 ^ 127) (281474976710656 - 153)) = 1 / 2 ^ 26 := by
    rw [F192.fval_mk hn hz, hm]
    norm_num [sgn]
  obtain ⟨k, F, k1, k2, k3, f1, f2, p1, p2⟩ := F192.print_c (s := false) (e := 281474976710656 - 153) hn ⟨by norm_num, by norm_num⟩
  have hF := f2 ⟨by norm_num, by norm_num⟩
  obtain ⟨hF1, hF2⟩ := abs_le.1 hF
  obtain ⟨t, v, y, l, t1, t2, t3, t4, t6, t5⟩ := F192.digitText_c k1 k2 (exp := F) (by omega) (by omega)
  obtain ⟨ds, d1, d2, d3⟩ := decimal_of t2 false
  refine ⟨_, t, ds, y, F192.valid_mk hn (by norm_num), hv, by rw [p1, t1, pure_bind]; rfl, d1, ?_⟩
  rw [hv, d2]
  rw [hm, abs_le] at p2
  have hk : 1 / 10 ^ 8 ≤ (k : ℚ) * 10 ^ F := by
    have := p2.1
    norm_num at this ⊢
    linarith
  have hy := t6 hk
  -- the value is a multiple of `10^-20`
  obtain ⟨j, hj⟩ : ∃ j : Nat, y = j - 20 := ⟨(y + 20).toNat, by omega⟩
  have hw : (v : ℚ) * 10 ^ y = ((v * 10 ^ j : Nat) : ℚ) / 10 ^ 20 := by
    rw [hj, zpow_sub₀ (by norm_num), zpow_natCast]
    push_cast
    rw [mul_div_assoc]
    norm_num
  rw [hw]
  rcases Nat.lt_or_ge (v * 10 ^ j) 1490116119385 with h | h
  · have : ((v * 10 ^ j : Nat) : ℚ) ≤ 1490116119384 := by exact_mod_cast Nat.lt_succ_iff.1 h
    generalize ((v * 10 ^ j : Nat) : ℚ) = V at *
    rw [abs_of_neg (by norm_num; linarith)]
    norm_num
    linarith
  · have : (1490116119385 : ℚ) ≤ ((v * 10 ^ j : Nat) : ℚ) := by exact_mod_cast h
    generalize ((v * 10 ^ j : Nat) : ℚ) = V at *
    rw [abs_of_pos (by norm_num; linarith)]
    norm_num
    linarith

private theorem ten_le_two (k : Nat) : (10 : ℚ) ^ (3 * k) ≤ 2 ^ (10 * k) := by
  rw [pow_mul, pow_mul]
  exact pow_le_pow_left₀ (by norm_num) (by norm_num) k

private theorem digitText_wrap {k : Nat} {F : Int} (h : 4294967296 ≤ F) : F192.digitText k F = F192.digitText k (F - 4294967296) := by
  have h1 : (F - 4294967296) % 4294967296 = F % 4294967296 := by omega
  unfold F192.digitText
  congr 1
  funext l
  rw [if_pos (show F ≥ 0 by omega), if_pos (show F - 4294967296 ≥ 0 by omega)]
  unfold F192.posText
  rw [h1]

private theorem large_c {n r : Nat} (hn : n = 4294967296) (hr : r = 1431655779) : ∃ x s ds y, FValid x ∧ (10 : ℚ) ^ n ≤ fval x ∧
    F192.to_approx_string x = pure s ∧ DecimalText s false ds y ∧ (digitsVal 10 ds : ℚ) * 10 ^ y ≤ 10 ^ 60 := by
  have hnr : n + 41 = 3 * r := by omega
  obtain ⟨m, e, a1, a2, a3, a4, a5, a6⟩ := F192.pow10_worker_c (n := n + 41) (by omega)
  have hp := F192.mg_pos (e := e) a2
  have he : (e : Int) - 281474976710656 + 127 ≤ (10 * r : Nat) := F192.exp_le a2 (by rw [zpow_natCast]; exact a6.trans (by rw [hnr]; exact ten_le_two r))
  obtain ⟨k, F, k1, k2, k3, f1, f2, p1, p2⟩ := F192.print_c (s := false) (e := e) a2 ⟨by omega, by omega⟩
  have hT : (0 : ℚ) < 10 ^ n := by positivity
  have hε : (1 : ℚ) - 1 / 10 ^ 20 ≤ 1 - ((n + 41 : Nat) : ℚ) / 2 ^ 124 := by
    have : ((n + 41 : Nat) : ℚ) = 4294967337 := by rw [hn]; norm_num
    rw [this]
    norm_num
  have low : (10 : ℚ) ^ (n + 41) * (1 - 1 / 10 ^ 20) ≤ mg m e := le_trans (mul_le_mul_of_nonneg_left hε (by positivity)) a5
  rw [abs_le] at p2
  have q1 : (10 : ℚ) ^ (n + 40) < k * 10 ^ F := by
    have e1 : (10 : ℚ) ^ (n + 41) = 10 ^ (n + 40) * 10 := pow_succ _ _
    have hT' : (0 : ℚ) < 10 ^ (n + 40) := by positivity
    rw [e1] at low
    generalize (10 : ℚ) ^ (n + 40) = T at *
    generalize (k : ℚ) * 10 ^ F = K at *
    generalize mg m e = V at *
    linarith [p2.1]
  have q2 : (k : ℚ) * 10 ^ F < 10 ^ (n + 42) := by
    have e1 : (10 : ℚ) ^ (n + 42) = 10 ^ (n + 41) * 10 := pow_succ _ _
    have hT' : (0 : ℚ) < 10 ^ (n + 41) := by positivity
    rw [e1]
    generalize (10 : ℚ) ^ (n + 41) = T at *
    generalize (k : ℚ) * 10 ^ F = K at *
    generalize mg m e = V at *
    linarith [p2.2]
  have hk1 : (1 : ℚ) ≤ k := by exact_mod_cast k1
  have hk2 : (k : ℚ) < 10 ^ 19 := by exact_mod_cast k2
  have hFp : (0 : ℚ) < 10 ^ F := by positivity
  have g1 : (n : Int) + 40 < F + 19 := by
    have h1 : (10 : ℚ) ^ (n + 40) < 10 ^ 19 * 10 ^ F := q1.trans (mul_lt_mul_of_pos_right hk2 hFp)
    have h2 : (10 : ℚ) ^ ((n : Int) + 40) < 10 ^ (F + 19) := by
      rw [zpow_add₀ (by norm_num : (10 : ℚ) ≠ 0) F, mul_comm]
      exact_mod_cast h1
    exact (zpow_lt_zpow_iff_right₀ (by norm_num : (1 : ℚ) < 10)).1 h2
  have g2 : F < (n : Int) + 42 := by
    have h1 : (10 : ℚ) ^ F < 10 ^ (n + 42) := lt_of_le_of_lt (le_mul_of_one_le_left hFp.le hk1) q2
    have h2 : (10 : ℚ) ^ F < 10 ^ ((n : Int) + 42) := by exact_mod_cast h1
    exact (zpow_lt_zpow_iff_right₀ (by norm_num : (1 : ℚ) < 10)).1 h2
  obtain ⟨t, v, y, l, t1, t2, t3, t4, t6, t5⟩ := F192.digitText_c k1 k2 (exp := F - 4294967296) (by omega) (by omega)
  obtain ⟨ds, d1, d2, d3⟩ := decimal_of t2 false
  refine ⟨mk' false m e, t, ds, y, F192.valid_mk a2 (by omega), ?_, ?_, d1, ?_⟩
  · rw [F192.fval_mk a2 (F192.nz_exp (by omega)), sgn]
    have e1 : (10 : ℚ) ^ (n + 41) = 10 ^ n * 10 ^ 41 := pow_add _ _ _
    rw [e1] at low
    simp only [Bool.false_eq_true, if_false, one_mul]
    generalize (10 : ℚ) ^ n = T at *
    norm_num at low
    linarith
  · rw [p1, digitText_wrap (by omega), t1, pure_bind]
    rfl
  · rw [d2]
    have h1 : (k : ℚ) * 10 ^ (F - 4294967296) ≤ 10 ^ 19 * 10 ^ (41 : Int) :=
      mul_le_mul hk2.le (zpow_le_zpow_right₀ (by norm_num) (by omega)) (by positivity) (by positivity)
    have h2 : (10 : ℚ) ^ 19 * 10 ^ (41 : Int) = 10 ^ 60 := by norm_num
    rcases t5 with h | ⟨-, -, h, -⟩
    · rw [h]
      linarith
    · linarith

/-- Numbers of at least `10^(2^32)` may be printed as much smaller numbers, as the exponent is cut to 32 bits. -/
theorem C69_large_counterexample : ∃ x s ds y, FValid x ∧ (10 : ℚ) ^ (2 ^ 32) ≤ fval x ∧
    F192.to_approx_string x = pure s ∧ DecimalText s false ds y ∧ (digitsVal 10 ds : ℚ) * 10 ^ y ≤ 10 ^ 60 :=
  large_c (n := 2 ^ 32) (by norm_num) rfl

private theorem small_c {n r : Nat} (hn : n = 4294967296) (hr : r = 1431655766) : ∃ x, FValid x ∧ 0 < fval x ∧ F192.to_approx_string x = throw .unwrap := by
  have hnr : n + 2 = 3 * r := by omega
  obtain ⟨mp, ep, a1, a2, a3, a4, a5, a6⟩ := F192.pow10_worker_c (n := n) (by omega)
  -- the number 11111111111
  have hc : mg (11111111111 * 2 ^ 94) (281474976710656 - 94) = 11111111111 := by rw [F192.mg_coeff_sub (by norm_num)]; norm_num
  have hcn : Nrm (11111111111 * 2 ^ 94) := ⟨by norm_num, by norm_num⟩
  obtain ⟨m, e, b1, b2, b3, b4, b5⟩ := F192.div_err (a := false) (b := false) (m₁ := 11111111111 * 2 ^ 94) (e₁ := 281474976710656 - 94) (m₂ := mp) (e₂ := ep)
    hcn a2 ⟨by norm_num, by norm_num⟩ ⟨by omega, by omega⟩
  rw [hc] at b4 b5
  have hT : (0 : ℚ) < 10 ^ n := by positivity
  have hε : (1 : ℚ) - 1 / 10 ^ 20 ≤ 1 - (n : ℚ) / 2 ^ 124 := by
    have : (n : ℚ) = 4294967296 := by rw [hn]; norm_num
    rw [this]
    norm_num
  obtain ⟨c1, c2⟩ := F192.scale_div (T := 10 ^ n) (ε := 1 / 10 ^ 20) (by norm_num : (0 : ℚ) < 11111111111) (F192.mg_pos a2) (by positivity) (by norm_num)
    (le_trans (mul_le_mul_of_nonneg_left hε hT.le) a5) a6 b4
    (b5.trans (mul_le_mul_of_nonneg_left (by norm_num) (div_pos (by norm_num) (F192.mg_pos a2)).le))
  have hp := F192.mg_pos (e := e) b1
  have he1 : -((10 * r : Nat) : Int) < (e : Int) - 281474976710656 + 128 := F192.exp_ge b1 (by
    rw [zpow_neg, zpow_natCast]
    have h1 := ten_le_two r
    rw [← hnr, pow_add] at h1
    rw [inv_le_comm₀ (by positivity) hp]
    refine le_trans ?_ h1
    rw [inv_le_comm₀ hp (by positivity), inv_le_iff_one_le_mul₀ (by positivity)]
    refine le_trans ?_ (le_trans c1 (le_mul_of_one_le_right (by positivity) ?_) |>.trans (le_of_eq (mul_assoc _ _ _)))
    · norm_num
    · norm_num)
  have he2 : (e : Int) - 281474976710656 + 127 ≤ 200 := F192.exp_le b1 (by
    have h1 : mg m e ≤ mg m e * 10 ^ n := le_mul_of_one_le_right hp.le (one_le_pow₀ (by norm_num))
    refine h1.trans (c2.trans ?_)
    norm_num)
  obtain ⟨k, F, k1, k2, k3, f1, f2, p1, p2⟩ := F192.print_c (s := false) (e := e) b1 ⟨by omega, by omega⟩
  have hz : ¬Z false m e := F192.nz_exp (by omega)
  refine ⟨mk' false m e, F192.valid_mk b1 (by omega), by rw [F192.fval_mk b1 hz]; simpa [sgn] using hp, ?_⟩
  -- the digits
  have hd : (11111111111 : ℚ) * (1 - 3 / 10 ^ 18) ≤ k * 10 ^ (F + n) ∧ (k : ℚ) * 10 ^ (F + n) ≤ 11111111111 * (1 + 3 / 10 ^ 18) := by
    rw [zpow_add₀ (by norm_num), zpow_natCast, ← mul_assoc]
    rw [abs_le] at p2
    have h1 := mul_le_mul_of_nonneg_right p2.1 hT.le
    have h2 := mul_le_mul_of_nonneg_right p2.2 hT.le
    rw [sub_mul] at h1 h2
    rw [neg_mul, mul_assoc] at h1
    rw [mul_assoc (199 / 10 ^ 20)] at h2
    generalize mg m e * 10 ^ n = V at *
    generalize (k : ℚ) * 10 ^ F * 10 ^ n = K at *
    constructor <;> linarith
  have hF : F + n ≤ 0 := by
    by_contra hF
    obtain ⟨j, hj⟩ : ∃ j : Nat, F + n = j + 1 := ⟨(F + n - 1).toNat, by omega⟩
    rw [hj, zpow_add₀ (by norm_num), zpow_natCast, zpow_one] at hd
    obtain ⟨w, hw⟩ : ∃ w, w = k * 10 ^ j := ⟨_, rfl⟩
    have hw' : (k : ℚ) * (10 ^ j * 10) = ((w * 10 : Nat) : ℚ) := by rw [hw]; push_cast; ring
    rw [hw'] at hd
    have u1 : (11111111110 : ℚ) < ((w * 10 : Nat) : ℚ) := by linarith [hd.1]
    have u2 : ((w * 10 : Nat) : ℚ) < 11111111112 := by linarith [hd.2]
    have u1' : 11111111110 < w * 10 := by exact_mod_cast u1
    have u2' : w * 10 < 11111111112 := by exact_mod_cast u2
    omega
  obtain ⟨j, hj⟩ : ∃ j : Nat, F = -((n + j : Nat) : Int) := ⟨(-(F + n)).toNat, by omega⟩
  have hkj : 10 ^ (j + 10) ≤ k ∧ k < 10 ^ (j + 11) := by
    have hjp : (0 : ℚ) < 10 ^ j := by positivity
    rw [show F + n = -(j : Int) by omega, zpow_neg, zpow_natCast, ← div_eq_mul_inv, le_div_iff₀ hjp, div_le_iff₀ hjp] at hd
    constructor
    · have : (10 : ℚ) ^ (j + 10) ≤ k := by
        rw [pow_add]
        generalize (10 : ℚ) ^ j = J at *
        linarith [hd.1]
      exact_mod_cast this
    · have : (k : ℚ) < 10 ^ (j + 11) := by
        rw [pow_add]
        generalize (10 : ℚ) ^ j = J at *
        linarith [hd.2]
      exact_mod_cast this
  have hlog : Nat.log 10 k = j + 10 := Nat.log_eq_of_pow_le_of_lt_pow hkj.1 hkj.2
  have hj9 : j < 9 := by
    have : 10 ^ (j + 10) < 10 ^ 19 := lt_of_le_of_lt hkj.1 k2
    have := (Nat.pow_lt_pow_iff_right (by norm_num)).1 this
    omega
  rw [p1, F192.digitText, F192.log10_c k k1 (lt_trans k2 (by norm_num)), pure_bind, if_neg (by omega), hlog, F192.negText,
    if_pos (by omega)]
  simp only []
  rw [if_neg (by omega)]
  rfl

/-- Printing a positive number near `10^(-2^32)` panics. -/
theorem C69_small_counterexample : ∃ x, FValid x ∧ 0 < fval x ∧ F192.to_approx_string x = throw .unwrap :=
  small_c rfl rfl

private theorem panic_c {n r : Nat} (hn : n = 4294967291) (hr : r = 1431655768) : ∃ x, FValid x ∧ (2 : ℚ) ^ n ≤ fval x ∧ x.exp ≤ 2 ^ 48 + 2 ^ 34 ∧
    F192.to_approx_string x = throw .overflow := by
  have hnr : n + 13 = 3 * r := by omega
  obtain ⟨mp, ep, a1, a2, a3, a4, a5, a6⟩ := F192.pow10_worker_c (n := n) (by omega)
  -- the number 11111111111
  have hc : mg (11111111111 * 2 ^ 94) (281474976710656 - 94) = 11111111111 := by rw [F192.mg_coeff_sub (by norm_num)]; norm_num
  have hcn : Nrm (11111111111 * 2 ^ 94) := ⟨by norm_num, by norm_num⟩
  obtain ⟨m, e, b1, -, -, -, -, -, b4, b5⟩ := F192.mul_c (a := false) (b := false) (m₁ := 11111111111 * 2 ^ 94) (e₁ := 281474976710656 - 94) (m₂ := mp) (e₂ := ep)
    hcn a2 (F192.nz_exp (by norm_num)) (F192.nz_exp (by omega)) (by omega) (by omega)
  rw [hc] at b4 b5
  have hT : (0 : ℚ) < 10 ^ n := by positivity
  have hε : (1 : ℚ) - 1 / 10 ^ 20 ≤ 1 - (n : ℚ) / 2 ^ 124 := by
    have : (n : ℚ) = 4294967291 := by rw [hn]; norm_num
    rw [this]
    norm_num
  obtain ⟨c1, c2⟩ := F192.scale_mul (T := 10 ^ n) (ε := 1 / 10 ^ 20) (by norm_num : (0 : ℚ) < 11111111111) (by positivity) (by norm_num) hT
    (le_trans (mul_le_mul_of_nonneg_left hε hT.le) a5) a6
    (le_trans (mul_le_mul_of_nonneg_left (by norm_num) (mul_pos (by norm_num) (F192.mg_pos a2)).le) b5) b4
  have hp := F192.mg_pos (e := e) b1
  have he1 : (e : Int) - 281474976710656 + 127 ≤ (10 * r : Nat) := F192.exp_le b1 (by
    have h1 := ten_le_two r
    rw [← hnr, pow_add] at h1
    rw [zpow_natCast]
    refine c1.trans (le_trans ?_ h1)
    generalize (10 : ℚ) ^ n = T at *
    norm_num
    linarith)
  have hlow : (10 : ℚ) ^ n ≤ mg m e := by
    generalize (10 : ℚ) ^ n = T at *
    norm_num at c2
    linarith
  have he2 : ((0 : Nat) : Int) < (e : Int) - 281474976710656 + 128 := F192.exp_ge b1 (by
    rw [Nat.cast_zero, zpow_zero]
    exact le_trans (one_le_pow₀ (by norm_num)) hlow)
  obtain ⟨k, F, k1, k2, k3, f1, f2, p1, p2⟩ := F192.print_c (s := false) (e := e) b1 ⟨by omega, by omega⟩
  have hz : ¬Z false m e := F192.nz_exp (by omega)
  refine ⟨mk' false m e, F192.valid_mk b1 (by omega), ?_, ?_, ?_⟩
  · rw [F192.fval_mk b1 hz, show sgn false = 1 from rfl, one_mul]
    exact le_trans (pow_le_pow_left₀ (by norm_num) (by norm_num) n) hlow
  · rw [F192.mk_exp]
    norm_num
    omega
  -- the digits
  have hd : (11111111111 : ℚ) * (1 - 3 / 10 ^ 18) ≤ k * 10 ^ (F - n) ∧ (k : ℚ) * 10 ^ (F - n) ≤ 11111111111 * (1 + 3 / 10 ^ 18) := by
    rw [zpow_sub₀ (by norm_num), zpow_natCast, ← mul_div_assoc, le_div_iff₀ hT, div_le_iff₀ hT]
    rw [abs_le] at p2
    generalize mg m e = V at *
    generalize (k : ℚ) * 10 ^ F = K at *
    generalize (10 : ℚ) ^ n = T at *
    constructor <;> linarith
  have hF : F - n ≤ 0 := by
    by_contra hF
    obtain ⟨j, hj⟩ : ∃ j : Nat, F - n = j + 1 := ⟨(F - n - 1).toNat, by omega⟩
    rw [hj, zpow_add₀ (by norm_num), zpow_natCast, zpow_one] at hd
    obtain ⟨w, hw⟩ : ∃ w, w = k * 10 ^ j := ⟨_, rfl⟩
    have hw' : (k : ℚ) * (10 ^ j * 10) = ((w * 10 : Nat) : ℚ) := by rw [hw]; push_cast; ring
    rw [hw'] at hd
    have u1 : (11111111110 : ℚ) < ((w * 10 : Nat) : ℚ) := by linarith [hd.1]
    have u2 : ((w * 10 : Nat) : ℚ) < 11111111112 := by linarith [hd.2]
    have u1' : 11111111110 < w * 10 := by exact_mod_cast u1
    have u2' : w * 10 < 11111111112 := by exact_mod_cast u2
    omega
  obtain ⟨j, hj⟩ : ∃ j : Nat, F = (n : Int) - j := ⟨(n - F).toNat, by omega⟩
  have hkj : 10 ^ (j + 10) ≤ k ∧ k < 10 ^ (j + 11) := by
    have hjp : (0 : ℚ) < 10 ^ j := by positivity
    rw [show F - n = -(j : Int) by omega, zpow_neg, zpow_natCast, ← div_eq_mul_inv, le_div_iff₀ hjp, div_le_iff₀ hjp] at hd
    constructor
    · have : (10 : ℚ) ^ (j + 10) ≤ k := by
        rw [pow_add]
        generalize (10 : ℚ) ^ j = J at *
        linarith [hd.1]
      exact_mod_cast this
    · have : (k : ℚ) < 10 ^ (j + 11) := by
        rw [pow_add]
        generalize (10 : ℚ) ^ j = J at *
        linarith [hd.2]
      exact_mod_cast this
  have hlog : Nat.log 10 k = j + 10 := Nat.log_eq_of_pow_le_of_lt_pow hkj.1 hkj.2
  have hj9 : j < 9 := by
    have : 10 ^ (j + 10) < 10 ^ 19 := lt_of_le_of_lt hkj.1 k2
    have := (Nat.pow_lt_pow_iff_right (by norm_num)).1 this
    omega
  rw [p1, F192.digitText, F192.log10_c k k1 (lt_trans k2 (by norm_num)), pure_bind, if_pos (by omega), hlog, F192.posText]
  rw [u32Add, uAdd, if_neg (by omega)]
  rfl

/-- Printing a number near `10^(2^32)` panics. -/
theorem C69_panic_counterexample : ∃ x, FValid x ∧ (2 : ℚ) ^ 4294967291 ≤ fval x ∧ x.exp ≤ 2 ^ 48 + 2 ^ 34 ∧
    F192.to_approx_string x = throw .overflow :=
  panic_c rfl rfl

end Props
end Hmath
