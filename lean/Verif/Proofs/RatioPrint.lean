import Verif.Proofs.RatioEst
import Verif.Spec.RatioPrint

/-!
# `Ratio` as decimal text
-/

namespace Hmath
namespace Ratio

/-! ## digits -/

theorem i64Str_digit {d : Nat} (h : d < 10) : i64Str (Int.ofNat d) = [Nat.digitChar d] := by
  have : ¬ (Int.ofNat d < 0) := by simp
  rw [i64Str, if_neg this, List.nil_append]
  exact Nat.toDigits_of_lt_base h

theorem digitsStr_map {D : List Nat} (h : ∀ d ∈ D, d < 10) : digitsStr (D.map Int.ofNat) = D.map Nat.digitChar := by
  induction D with
  | nil => rfl
  | cons d D ih =>
    have := ih fun e he => h e (by simp [he])
    rw [digitsStr] at this ⊢
    rw [List.map_cons, List.map_cons, List.flatten_cons, this, i64Str_digit (h d (by simp))]
    rfl

theorem pointStr_map {d : Nat} {D : List Nat} (h0 : d < 10) (h : ∀ d ∈ D, d < 10) :
    pointStr ((d :: D).map Int.ofNat) = pure (Nat.digitChar d ::
      (if D.map Nat.digitChar = [] then [] else '.' :: D.map Nat.digitChar)) := by
  cases D with
  | nil =>
    show pure (i64Str (Int.ofNat d)) = _
    rw [i64Str_digit h0]; rfl
  | cons e E =>
    show pure (i64Str (Int.ofNat d) ++ '.' :: digitsStr ((e :: E).map Int.ofNat)) = _
    rw [i64Str_digit h0, digitsStr_map h, if_neg (by simp)]; rfl

theorem popZeros_zero (D : List Nat) :
    (popZeros 0 (D.map Int.ofNat).reverse).reverse = (UBig.strip0 D).map Int.ofNat := by
  induction D using List.reverseRecOn with
  | nil => rfl
  | append_singleton D x ih =>
    rw [List.map_append, List.map_singleton, List.reverse_append, List.reverse_singleton, List.singleton_append, popZeros,
      UBig.strip0_snoc]
    by_cases h : x = 0
    · rw [if_pos ⟨by omega, by rw [h]; rfl⟩, ih, if_pos h]
    · rw [if_neg (by rintro ⟨-, h2⟩; exact h (by simpa using h2)), if_neg h]
      simp

theorem popZeros_one (d : Nat) (D : List Nat) :
    (popZeros 1 ((d :: D).map Int.ofNat).reverse).reverse = (d :: UBig.strip0 D).map Int.ofNat := by
  induction D using List.reverseRecOn with
  | nil =>
    have : (([d] : List Nat).map Int.ofNat).reverse = [Int.ofNat d] := rfl
    rw [this, popZeros, if_neg (by simp)]
    rfl
  | append_singleton D x ih =>
    have : ((d :: (D ++ [x])).map Int.ofNat).reverse = Int.ofNat x :: ((d :: D).map Int.ofNat).reverse := by simp
    rw [this, popZeros, UBig.strip0_snoc]
    by_cases h : x = 0
    · rw [if_pos ⟨by simp, by rw [h]; rfl⟩, ih, if_pos h]
    · rw [if_neg (by rintro ⟨-, h2⟩; exact h (by simpa using h2)), if_neg h]
      simp

/-! ## the plain notation -/

theorem decimalDigit_add {q : ℚ} (hq : 0 ≤ q) (m : Nat) (i : Nat) : decimalDigit (q + m) i = decimalDigit q i := by
  have e : (q + m) * 10 ^ (i + 1) = q * 10 ^ (i + 1) + ((m * 10 ^ (i + 1) : Nat) : ℚ) := by push_cast; ring
  rw [decimalDigit, decimalDigit, e, Nat.floor_add_natCast (by positivity), pow_succ (10 : ℕ), ← mul_assoc, Nat.add_mul_mod_self_right]

theorem decimalDigit_succ {q : ℚ} (hq : 0 ≤ q) (i : Nat) :
    decimalDigit (q * 10 - (⌊q * 10⌋₊ : Nat)) i = decimalDigit q (i + 1) := by
  have h10 : 0 ≤ q * 10 := by linarith
  have := decimalDigit_add (q := q * 10 - (⌊q * 10⌋₊ : Nat)) (by linarith [Nat.floor_le h10]) ⌊q * 10⌋₊ i
  rw [← this, sub_add_cancel, decimalDigit, decimalDigit]
  congr 2
  ring

theorem fixedDigits_c (k : Nat) : ∀ {f : ℚ}, 0 ≤ f → f < 1 → ∀ ds, fixedDigits k (ofRat f) ds =
    pure ((((List.range k).map (decimalDigit f)).map Int.ofNat).reverse ++ ds) := by
  induction k with
  | zero => intro f _ _ ds; rfl
  | succ k ih =>
    intro f h0 h1 ds
    have h2 : 0 ≤ f * 10 := by linarith
    have e0 : qtrunc (f * ((10 : Int) : ℚ)) = ((⌊f * 10⌋₊ : Nat) : Int) := by
      push_cast
      rw [qtrunc_nonneg _ h2, Int.natCast_floor_eq_floor h2]
    have e1 : ⌊f * 10⌋₊ < 10 := (Nat.floor_lt h2).2 (by push_cast; linarith)
    rw [fixedDigits, mul_i32_mut_c _ (by unfold IsI32; omega) (by omega), pure_bind, truncate_bi_c, pure_bind, e0,
      BigI.to_i32_c, pure_bind, if_pos (by omega), unwrapR_ok, pure_bind, frac_mut_c, pure_bind, e0]
    push_cast
    rw [ih (by linarith [Nat.floor_le h2]) (by linarith [Nat.lt_floor_add_one (f * 10)])]
    congr 1
    rw [List.range_succ_eq_map, List.map_cons, List.map_map, List.map_cons, List.reverse_cons, List.append_assoc]
    congr 1
    · congr 1
      rw [List.map_map, List.map_map]
      refine List.map_congr_left fun i _ => ?_
      exact congrArg Int.ofNat (decimalDigit_succ h0 i)
    · have : decimalDigit f 0 = ⌊f * 10⌋₊ := by
        rw [decimalDigit, zero_add, pow_one, Nat.mod_eq_of_lt e1]
      rw [this]; rfl

theorem natAbs_qtrunc (q : ℚ) : (qtrunc q).natAbs = ⌊|q|⌋₊ := by
  rcases le_total 0 q with h | h
  · rw [abs_of_nonneg h, qtrunc_nonneg q h, ← Int.natCast_floor_eq_floor h, Int.natAbs_natCast]
  · have h' : 0 ≤ -q := by linarith
    rw [abs_of_nonpos h]
    have := qtrunc_neg (-q)
    rw [neg_neg] at this
    rw [this, qtrunc_nonneg _ h', ← Int.natCast_floor_eq_floor h', Int.natAbs_neg, Int.natAbs_natCast]

theorem to_string_dec_c (z : Int) (h : (ofNat z.natAbs).length ≤ B32) : BigI.to_string_dec (ofInt z) = pure (i64Str z) := by
  rw [BigI.to_string_dec, BigI.mag_ofInt, UBig.to_string_dec_eq (valid_ofNat _) h, pure_bind, val_ofNat]
  rw [BigI.withSign, i64Str, BigI.is_neg_c]
  by_cases h : z < 0
  · simp [h]
  · simp [h]

theorem floor_length {q : ℚ} {L : Nat} (hL : 0 < L) (hn : (ofNat q.num.natAbs).length ≤ L) : (ofNat ⌊|q|⌋₊).length ≤ L := by
  rw [length_ofNat_le_iff hL] at hn ⊢
  refine lt_of_le_of_lt ?_ hn
  rw [← natAbs_qtrunc, qtrunc, Int.natAbs_tdiv]
  exact Nat.div_le_self _ _

theorem fixedText_c {q : ℚ} (hn : (ofNat q.num.natAbs).length ≤ 2 ^ 27) (neg : Prop) [Decidable neg] (k : Nat) :
    fixedText (ofRat q) (if neg then ['-'] else []) k = pure (fixedRat neg |q|
      (k - ((Nat.toDigits 10 ⌊|q|⌋₊).length + 1 + (if neg then 1 else 0)))) := by
  have hq : 0 ≤ |q| := abs_nonneg q
  have hs : (if neg then ['-'] else [] : List Char).length = if neg then 1 else 0 := by split <;> rfl
  have e0 : qtrunc |q| = ((⌊|q|⌋₊ : Nat) : Int) := by
    rw [qtrunc_nonneg _ hq, Int.natCast_floor_eq_floor hq]
  have e1 : i64Str |qtrunc q| = Nat.toDigits 10 ⌊|q|⌋₊ := by
    rw [i64Str, if_neg (by have := abs_nonneg (qtrunc q); omega), List.nil_append, Int.natAbs_abs, natAbs_qtrunc]
  rw [fixedText, truncate_bi_c, pure_bind, BigI.abs_c, to_string_dec_c _ (by
      rw [Int.natAbs_abs, natAbs_qtrunc]; exact (floor_length (by norm_num) hn).trans (by norm_num)), pure_bind,
    abs_c, frac_c, pure_bind, e0, e1, hs]
  push_cast
  rw [fixedDigits_c _ (by linarith [Nat.floor_le hq]) (by linarith [Nat.lt_floor_add_one |q|]), pure_bind, List.append_nil]
  generalize k - ((Nat.toDigits 10 ⌊|q|⌋₊).length + 1 + (if neg then 1 else 0)) = d
  have e2 : (List.range d).map (decimalDigit (|q| - (⌊|q|⌋₊ : Nat))) = (List.range d).map (decimalDigit |q|) := by
    refine List.map_congr_left fun i _ => ?_
    have := decimalDigit_add (q := |q| - (⌊|q|⌋₊ : Nat)) (by linarith [Nat.floor_le hq]) ⌊|q|⌋₊ i
    rw [← this, sub_add_cancel]
  have e3 : ∀ x ∈ (List.range d).map (decimalDigit |q|), x < 10 := by
    intro x hx
    obtain ⟨i, -, rfl⟩ := List.mem_map.1 hx
    exact Nat.mod_lt _ (by norm_num)
  rw [e2]
  generalize hD : (List.range d).map (decimalDigit |q|) = D at *
  simp only [popZeros_zero]
  rw [digitsStr_map fun x hx => e3 x (UBig.mem_strip0 hx), ← UBig.stripZeros_map D e3, List.length_map]
  have e4 : (List.range d).map (fun i => Nat.digitChar (decimalDigit |q| i)) = D.map Nat.digitChar := by
    rw [← hD, List.map_map]; rfl
  rw [fixedRat]
  simp only [e4, UBig.stripZeros_map D e3, List.map_eq_nil_iff, List.append_assoc]
  by_cases h : UBig.strip0 D = []
  · rw [if_pos h, h]; simp
  · rw [if_neg h, if_pos (List.length_pos_iff.2 h)]

/-! ## the notation for large numbers -/

theorem i64Str_expText (x : Int) : 'e' :: i64Str x = expText x := rfl

theorem floor_div_pow (q : ℚ) (j : Nat) : ⌊q⌋₊ / 10 ^ j = ⌊q / 10 ^ j⌋₊ := by
  have := Nat.floor_div_natCast q (10 ^ j)
  push_cast at this
  exact this.symm

theorem bigLoop_c (n : Nat) : ∀ e : Int, ∃ j : Nat, bigLoop (ofInt n) e = pure (ofInt ((n / 10 ^ j : Nat) : Int), e + j) ∧
    n / 10 ^ j ≤ 1000000000 ∧ (j = 0 ∨ 100000000 ≤ n / 10 ^ j) := by
  induction n using Nat.strong_induction_on with
  | _ n ih =>
    intro e
    have hg : bigLoop (ofInt n) e = (if decide (1000000000 < n) = true then do
        let b ← BigI.div_i32_mut (ofInt n) 10
        bigLoop b (e + 1)
      else pure (ofInt n, e)) := by
      rw [bigLoop, BigI.mag_ofInt, Int.natAbs_natCast]
      by_cases h : (ofNat n).length > 1
      · rw [if_pos h, pure_bind]
        have := (length_ofNat_gt_iff (by norm_num)).1 h
        rw [decide_eq_true (by omega)]
      · rw [if_neg h, BigI.gt_i32_c (by unfold IsI32; omega) (by omega), pure_bind]
        have : decide ((1000000000 : Int) < n) = decide (1000000000 < n) := by
          congr 1
          exact propext (by omega)
        rw [this]
    rw [hg]
    by_cases h : 1000000000 < n
    · rw [decide_eq_true h, if_pos rfl, BigI.div_i32_mut_c (by unfold IsI32; omega) (by omega) (by omega), pure_bind]
      have e1 : (n : Int).tdiv 10 = ((n / 10 : Nat) : Int) := by
        rw [Int.tdiv_eq_ediv_of_nonneg (by omega)]; rfl
      obtain ⟨j, h1, h2, h3⟩ := ih (n / 10) (by omega) (e + 1)
      have e2 : n / 10 / 10 ^ j = n / 10 ^ (j + 1) := by rw [Nat.div_div_eq_div_mul, pow_succ, mul_comm]
      rw [e2] at h1 h2 h3
      refine ⟨j + 1, ?_, h2, .inr ?_⟩
      · rw [e1, h1]
        congr 2
        push_cast
        ring
      · rcases h3 with h3 | h3
        · rw [h3, zero_add, pow_one]; omega
        · exact h3
    · rw [decide_eq_false h, if_neg (by decide)]
      exact ⟨0, by simp, by simpa using h, .inl rfl⟩

/-- the digits for large numbers -/
theorem bigParts_c {q : ℚ} {A : Int} (h1 : 4 ≤ A) (h2 : A ≤ 9990) (h3 : 10 ^ A * (1 - 1 / 10 ^ 5) ≤ |q|) :
    ∃ N X : Nat, N * 10 ^ X ≤ |q| ∧ |q| < (N + 1) * 10 ^ X ∧ N ≤ 1000000000 ∧ 9999 ≤ N ∧
      (100000000 ≤ N ∨ X = 0 ∧ 10 ^ A * (1 - 1 / 10 ^ 5) < (N : ℚ) + 1) ∧
      (bigScale (ofRat q) A >>= fun p => bigLoop p.1 p.2) = pure (ofInt N, (X : Int)) := by
  have hq : 0 ≤ |q| := abs_nonneg q
  have key : ∃ s : Nat, (s = 0 ∨ (s : Int) = A - 10) ∧ bigScale (ofRat q) A = pure (ofInt ((⌊|q|⌋₊ / 10 ^ s : Nat) : Int), (s : Int)) := by
    have e0 : |qtrunc q| = ((⌊|q|⌋₊ : Nat) : Int) := by rw [← natAbs_qtrunc, Int.natCast_natAbs]
    rw [bigScale, truncate_bi_c, pure_bind]
    simp only [BigI.abs_mut_c, e0]
    by_cases h : A > 15
    · rw [if_pos h, BigI.from_i32_c (by unfold IsI32; omega) (by omega), pure_bind, BigI.pow_u32_c (by omega), pure_bind,
        BigI.div_mut_c (by positivity), pure_bind]
      refine ⟨(A - 10).toNat, .inr (by omega), ?_⟩
      have t1 : ((⌊|q|⌋₊ : Nat) : Int).tdiv (10 ^ (A - 10).toNat) = ((⌊|q|⌋₊ / 10 ^ (A - 10).toNat : Nat) : Int) := by
        rw [Int.tdiv_eq_ediv_of_nonneg (by positivity)]
        push_cast
        rfl
      have t2 : A - 10 = ((A - 10).toNat : Int) := by omega
      rw [t1]
      exact congrArg pure (Prod.ext rfl t2)
    · rw [if_neg h]
      exact ⟨0, .inl rfl, by simp⟩
  obtain ⟨s, hs, hs2⟩ := key
  obtain ⟨j, j1, j2, j3⟩ := bigLoop_c (⌊|q|⌋₊ / 10 ^ s) s
  have hfl : ⌊|q|⌋₊ / 10 ^ s / 10 ^ j = ⌊|q| / 10 ^ (s + j)⌋₊ := by
    rw [Nat.div_div_eq_div_mul, ← pow_add, floor_div_pow]
  rw [hfl] at j1 j2 j3
  have hp : (0 : ℚ) < 10 ^ (s + j) := by positivity
  have f1 : ((⌊|q| / 10 ^ (s + j)⌋₊ : Nat) : ℚ) * 10 ^ (s + j) ≤ |q| := by
    rw [← le_div_iff₀ hp]; exact Nat.floor_le (by positivity)
  have f2 : |q| < ((⌊|q| / 10 ^ (s + j)⌋₊ : Nat) + 1 : ℚ) * 10 ^ (s + j) := by
    rw [← div_lt_iff₀ hp]; exact Nat.lt_floor_add_one _
  generalize ⌊|q| / 10 ^ (s + j)⌋₊ = N at *
  have hA4 : (10 : ℚ) ^ (4 : Int) ≤ 10 ^ A := zpow_le_zpow_right₀ (by norm_num) h1
  have hcase : 100000000 ≤ N ∨ s + j = 0 ∧ 10 ^ A * (1 - 1 / 10 ^ 5) < (N : ℚ) + 1 := by
    rcases j3 with rfl | j3
    · rcases hs with rfl | hs
      · refine .inr ⟨rfl, ?_⟩
        rw [add_zero, pow_zero, mul_one] at f2
        exact lt_of_le_of_lt h3 f2
      · exfalso
        have e : (10 : ℚ) ^ A = 10 ^ s * 10 ^ 10 := by
          have : A = (s : Int) + 10 := by omega
          rw [this, zpow_add₀ (by norm_num), zpow_natCast]
          norm_cast
        rw [add_zero] at f2 f1 hp
        rw [e] at h3
        have hN : (N : ℚ) ≤ 1000000000 := by exact_mod_cast j2
        have := lt_of_le_of_lt h3 f2
        have h4 : (10 : ℚ) ^ s * 10 ^ 10 * (1 - 1 / 10 ^ 5) < 10 ^ s * 1000000001 := by
          refine lt_of_lt_of_le this ?_
          rw [mul_comm]
          exact mul_le_mul_of_nonneg_left (by linarith) hp.le
        rw [mul_assoc] at h4
        have := lt_of_mul_lt_mul_left h4 hp.le
        norm_num at this
    · exact .inl j3
  refine ⟨N, s + j, f1, f2, j2, ?_, hcase, ?_⟩
  · rcases hcase with h | ⟨-, h⟩
    · omega
    · have : (9999 : ℚ) < N + 1 := by norm_num at hA4 h ⊢; linarith
      have : 9999 < N + 1 := by exact_mod_cast this
      omega
  · rw [hs2, pure_bind, j1]
    push_cast
    rfl

theorem bigCut_c {d : Char} {f : List Char} (hf : ∀ c ∈ f, c ≠ '.') {n : Nat} (hn : 2 ≤ n) (hl : n < f.length + 2) :
    bigCut (d :: '.' :: f) n = pure (d :: (if f.take (n - 2) = [] then [] else '.' :: f.take (n - 2))) := by
  obtain ⟨m, rfl⟩ : ∃ m, n = m + 2 := ⟨n - 2, by omega⟩
  rw [bigCut, if_pos (by simp only [List.length_cons]; omega)]
  have key : ∀ t : List Char, t = d :: '.' :: f.take m → (if t.getLast? = some '.' then t.dropLast else t) =
      d :: (if f.take m = [] then [] else '.' :: f.take m) := by
    rintro t rfl
    by_cases h : f.take m = []
    · rw [h]; rfl
    · rw [if_neg h, if_neg]
      rw [List.getLast?_cons_cons, List.getLast?_cons_of_ne_nil h, List.getLast?_eq_some_getLast h]
      intro hc
      exact hf _ (List.mem_of_mem_take (List.getLast_mem h)) (by simpa using hc)
  exact congrArg pure (key _ rfl)

theorem bigText_c {q : ℚ} {A : Int} (h1 : 4 ≤ A) (h2 : A ≤ 9990) (h3 : 10 ^ A * (1 - 1 / 10 ^ 5) ≤ |q|)
    (neg : Prop) [Decidable neg] (k : Nat) :
    ∃ N X : Nat, N * 10 ^ X ≤ |q| ∧ |q| < (N + 1) * 10 ^ X ∧ N ≤ 1000000000 ∧ 9999 ≤ N ∧
      (100000000 ≤ N ∨ X = 0 ∧ 10 ^ A * (1 - 1 / 10 ^ 5) < (N : ℚ) + 1) ∧
      bigText (ofRat q) A (if neg then ['-'] else []) k = pure (sciCutRat neg N X (sciRoom neg (X + Nat.log 10 N) k)) := by
  obtain ⟨N, X, n1, n2, n3, n4, n5, n6⟩ := bigParts_c h1 h2 h3
  refine ⟨N, X, n1, n2, n3, n4, n5, ?_⟩
  have hs : (if neg then ['-'] else [] : List Char).length = if neg then 1 else 0 := by split <;> rfl
  have hs2 : (if neg then 1 else 0 : Nat) ≤ 1 := by split <;> omega
  have n6' : ∀ {β} (g : BigI × Int → M β), (bigScale (ofRat q) A >>= fun p => bigLoop p.1 p.2 >>= g) = g (ofInt N, (X : Int)) := by
    intro β g
    rw [← bind_assoc, n6, pure_bind]
  rw [bigText, n6']
  simp only []
  rw [BigI.to_i32_c, pure_bind, if_pos (by omega), unwrapR_ok, pure_bind, Int.toNat_natCast]
  obtain ⟨D, d1, d2, d3⟩ := UBig.sciLoop_eq N 0 [] (by omega)
  have hlog := UBig.log_eq_length N (by omega)
  have hpos := @Nat.length_toDigits_pos 10 N
  simp only [d1, List.append_nil, Nat.zero_add]
  have hx : (X : Int) + ((Nat.toDigits 10 N).length : Nat) - 1 = X + (Nat.log 10 N : Nat) := by omega
  rw [hx, i64Str_expText]
  obtain ⟨d, E, rfl⟩ : ∃ d E, D = d :: E := by
    cases D with
    | nil => exact absurd d3.symm Nat.toDigits_ne_nil
    | cons d E => exact ⟨d, E, rfl⟩
  have hE : ∀ e ∈ E, e < 10 := fun e he => d2 e (by simp [he])
  have hE' : ∀ e ∈ UBig.strip0 E, e < 10 := fun e he => hE e (UBig.mem_strip0 he)
  rw [popZeros_one, pointStr_map (d2 d (by simp)) hE', pure_bind, sciCutRat, sciRoom]
  simp only [← d3, List.map_cons, List.tail_cons, List.take_succ_cons, List.take_zero]
  rw [UBig.stripZeros_map _ hE, hs]
  generalize (if neg then 1 else 0 : Nat) = s at *
  generalize (if neg then ['-'] else [] : List Char) = S at *
  generalize hF : (UBig.strip0 E).map Nat.digitChar = F at *
  have hFd : ∀ c ∈ F, c ≠ '.' := by
    rw [← hF]
    intro c hc
    obtain ⟨e, he, rfl⟩ := List.mem_map.1 hc
    have : ∀ e < 10, Nat.digitChar e ≠ '.' := by decide
    exact this e (hE' e he)
  generalize expText (↑X + ↑(Nat.log 10 N)) = ex
  obtain ⟨M, hM⟩ : ∃ M, M = max k (ex.length + 3) := ⟨_, rfl⟩
  rw [← hM]
  have hM2 : ex.length + 3 ≤ M := by omega
  by_cases hF0 : F = []
  · rw [hF0, List.take_nil, if_pos rfl, if_neg (by simp only [List.length_singleton]; omega)]
    simp
  · rw [if_neg hF0]
    by_cases h : (Nat.digitChar d :: '.' :: F).length + ex.length + s > M
    · have hu1 : uSub M ex.length = pure (M - ex.length) := by rw [uSub, if_pos (by omega)]
      have hu2 : uSub (M - ex.length) s = pure (M - ex.length - s) := by rw [uSub, if_pos (by omega)]
      simp only [List.length_cons] at h
      rw [if_pos (by simpa only [List.length_cons] using h), hu1, pure_bind, hu2, pure_bind, bigCut_c hFd (by omega) (by omega), pure_bind]
      simp
    · simp only [List.length_cons] at h
      rw [if_neg (by simpa only [List.length_cons] using h), List.take_of_length_le (by omega), if_neg hF0]
      simp

/-! ## the notation for small numbers -/

theorem smallDiv2_c (p : Nat) : ∀ d : Int, ∃ (j : Nat) (d' : Int), j ≤ p ∧ d = 2 ^ j * d' ∧ (j = p ∨ ¬ 2 ∣ d') ∧
    smallDiv2 p (ofInt d) = pure (p - j, ofInt d') := by
  induction p with
  | zero => intro d; exact ⟨0, d, le_refl _, by simp, .inl rfl, rfl⟩
  | succ p ih =>
    intro d
    rw [smallDiv2, rem_pow2_two, pure_bind, BigI.is_zero_c]
    by_cases h : d.tmod 2 = 0
    · rw [decide_eq_true h, if_pos rfl, BigI.div_i32_mut_c (by unfold IsI32; omega) (by omega) (by omega), pure_bind]
      have g1 : d.tdiv 2 * 2 = d := Int.tdiv_mul_cancel (Int.dvd_of_tmod_eq_zero h)
      obtain ⟨j, d', r1, r2, r3, r4⟩ := ih (d.tdiv 2)
      refine ⟨j + 1, d', by omega, ?_, by omega, ?_⟩
      · rw [← g1, r2]; ring
      · rw [r4]; congr 2; omega
    · rw [decide_eq_false h, if_neg (by decide)]
      exact ⟨0, d, by omega, by simp, .inr fun h2 => h (Int.tmod_eq_zero_of_dvd h2), rfl⟩

theorem smallDiv5_c {L : Nat} (hL : 0 < L) (hL' : L ≤ B32) (p : Nat) : ∀ d : Int, d.natAbs < B32 ^ L → ∃ (j : Nat) (d' : Int), j ≤ p ∧ d = 5 ^ j * d' ∧
    (j = p ∨ ¬ 5 ∣ d') ∧ smallDiv5 p (ofInt d) = pure (p - j, ofInt d') := by
  induction p with
  | zero => intro d _; exact ⟨0, d, le_refl _, by simp, .inl rfl, rfl⟩
  | succ p ih =>
    intro d hl
    rw [smallDiv5, BigI.rem_i32_c (by unfold IsI32; omega) (by omega) (by omega) (by
      rw [BigI.mag_ofInt]; exact ((length_ofNat_le_iff hL).2 hl).trans hL'), pure_bind, BigI.is_zero_c]
    by_cases h : d.tmod 5 = 0
    · rw [decide_eq_true h, if_pos rfl, BigI.div_i32_mut_c (by unfold IsI32; omega) (by omega) (by omega), pure_bind]
      have g1 : d.tdiv 5 * 5 = d := Int.tdiv_mul_cancel (Int.dvd_of_tmod_eq_zero h)
      obtain ⟨j, d', r1, r2, r3, r4⟩ := ih (d.tdiv 5) (lt_of_le_of_lt (by
        rw [Int.natAbs_tdiv]; exact Nat.div_le_self _ _) hl)
      refine ⟨j + 1, d', by omega, ?_, by omega, ?_⟩
      · rw [← g1, r2]; ring
      · rw [r4]; congr 2; omega
    · rw [decide_eq_false h, if_neg (by decide)]
      exact ⟨0, d, by omega, by simp, .inr fun h2 => h (Int.tmod_eq_zero_of_dvd h2), rfl⟩

/-- the exponent of the last digit -/
def smallExp (A : Int) : Int := if A < -6 then A else 0

theorem smallScale_c {q : ℚ} (hd : (ofNat q.den).length ≤ 2 ^ 27) {A : Int} (h : -9990 ≤ A) :
    smallScale (ofRat q) A = pure (ofRat (|q| * 10 ^ (-smallExp A)), smallExp A - 1) := by
  rw [smallScale, abs_c]
  unfold smallExp
  by_cases hA : A < -6
  · rw [if_pos hA, if_pos hA, denom_ofRat, numer_ofRat]
    obtain ⟨p, hp⟩ : ∃ p : Nat, p = (-A).toNat := ⟨_, rfl⟩
    simp only [← hp]
    obtain ⟨j2, d2, a1, a2, a3, a4⟩ := smallDiv2_c p |q|.den
    obtain ⟨L, hLe⟩ : ∃ L : Nat, L = 2 ^ 27 := ⟨_, rfl⟩
    have hL : 0 < L := by rw [hLe]; norm_num
    have hL' : L ≤ B32 := by rw [hLe]; norm_num
    rw [← hLe] at hd
    have hd2 : d2.natAbs < B32 ^ L := by
      rw [length_ofNat_le_iff hL] at hd
      refine lt_of_le_of_lt ?_ hd
      have := congrArg Int.natAbs a2
      rw [Int.natAbs_natCast, (abs_num_den q).2, Int.natAbs_mul, Int.natAbs_pow] at this
      rw [this]
      exact Nat.le_mul_of_pos_left _ (by positivity)
    obtain ⟨j5, d5, b1, b2, b3, b4⟩ := smallDiv5_c hL hL' p d2 hd2
    rw [a4, pure_bind]
    simp only []
    rw [b4, pure_bind]
    simp only []
    rw [BigI.exp2_c, pure_bind, BigI.from_i32_c (by unfold IsI32; omega) (by omega), pure_bind, BigI.pow_u32_c (by omega), pure_bind,
      BigI.mul_c, pure_bind, BigI.mul_mut_c, pure_bind]
    have hcop : IsCoprime |q|.num (|q|.den : Int) := Int.isCoprime_iff_gcd_eq_one.2 |q|.reduced
    have hden : (|q|.den : Int) = 2 ^ j2 * (5 ^ j5 * d5) := by rw [a2, b2]
    have hdpos := den_pos' |q|
    rw [hden] at hcop hdpos
    have hd5 : 0 < d5 := by
      have := pos_of_mul_pos_right hdpos (by positivity)
      exact pos_of_mul_pos_right this (by positivity)
    refine congrArg pure (Prod.ext (mk_c hd5 ?_ ?_) (by omega))
    · rw [← Int.isCoprime_iff_gcd_eq_one]
      refine IsCoprime.mul_left hcop.of_mul_right_right.of_mul_right_right (IsCoprime.mul_left ?_ ?_)
      · rcases a3 with a3 | a3
        · rw [a3, Nat.sub_self, pow_zero]; exact isCoprime_one_left
        · refine IsCoprime.pow_left ((Int.prime_two.coprime_iff_not_dvd).2 fun hh => a3 ?_)
          rw [b2]; exact Dvd.dvd.mul_left hh _
      · rcases b3 with b3 | b3
        · rw [b3, Nat.sub_self, pow_zero]; exact isCoprime_one_left
        · have p5 : Prime (5 : Int) := Int.prime_iff_natAbs_prime.2 Nat.prime_five
          exact IsCoprime.pow_left ((p5.coprime_iff_not_dvd).2 b3)
    · have hq : |q| = |q|.num / |q|.den := (Rat.num_div_den _).symm
      have hden' : (|q|.den : ℚ) = 2 ^ j2 * (5 ^ j5 * d5) := by exact_mod_cast hden
      have hd5' : (d5 : ℚ) ≠ 0 := by exact_mod_cast hd5.ne'
      have hpw : (10 : ℚ) ^ (-A) = 2 ^ (p - j2) * 5 ^ (p - j5) * (2 ^ j2 * 5 ^ j5) := by
        have e1 : -A = (p : Int) := by omega
        have e2 : (2 : ℚ) ^ (p - j2) * 2 ^ j2 = 2 ^ p := by rw [← pow_add, Nat.sub_add_cancel a1]
        have e3 : (5 : ℚ) ^ (p - j5) * 5 ^ j5 = 5 ^ p := by rw [← pow_add, Nat.sub_add_cancel b1]
        have e4 : (10 : ℚ) ^ p = 2 ^ p * 5 ^ p := by rw [← mul_pow]; norm_num
        rw [e1, zpow_natCast, e4, ← e2, ← e3]; ring
      have hq2 : |q| = |q|.num / (2 ^ j2 * (5 ^ j5 * d5)) := by rw [← hden']; exact hq
      rw [hpw]
      generalize |q|.num = n at *
      rw [hq2]
      push_cast
      field_simp
  · rw [if_neg hA, if_neg hA, neg_zero, zpow_zero, mul_one]
    rfl

theorem smallDigits_c (n : Nat) : ∀ (e : Int) (ds : List Int), n < 10000000000 → ∃ D : List Nat,
    smallDigits (ofInt n) e ds = pure (e + D.length, D.map Int.ofNat ++ ds) ∧ (∀ d ∈ D, d < 10) ∧
      (0 < n → D.map Nat.digitChar = Nat.toDigits 10 n ∧ D.head? ≠ some 0) := by
  induction n using Nat.strong_induction_on with
  | _ n ih =>
    intro e ds hb
    rw [smallDigits, BigI.gt_i32_c (by unfold IsI32; omega) (by omega), pure_bind]
    by_cases h : n = 0
    · rw [h, decide_eq_false (by omega), if_neg (by decide)]
      exact ⟨[], by simp, by simp, by omega⟩
    · have hl : (ofInt (n : Int)).mag.length ≤ B32 := by
        rw [BigI.mag_ofInt, Int.natAbs_natCast]
        refine le_trans ((length_ofNat_le_iff (k := 2) (by norm_num)).2 ?_) (show 2 ≤ B32 by norm_num)
        exact lt_trans hb (by norm_num)
      have e1 : (n : Int).tmod 10 = ((n % 10 : Nat) : Int) := by
        rw [Int.tmod_eq_emod_of_nonneg (by omega)]; rfl
      have e2 : (n : Int).tdiv 10 = ((n / 10 : Nat) : Int) := by
        rw [Int.tdiv_eq_ediv_of_nonneg (by omega)]; rfl
      rw [decide_eq_true (by omega), if_pos rfl, BigI.rem_i32_c (by unfold IsI32; omega) (by omega) (by omega) hl, pure_bind, e1,
        BigI.to_i32_c, pure_bind, if_pos (by omega), unwrapR_ok, pure_bind,
        BigI.div_i32_mut_c (by unfold IsI32; omega) (by omega) (by omega), pure_bind, e2]
      obtain ⟨D, d1, d2, d3⟩ := ih (n / 10) (by omega) (e + 1) (((n % 10 : Nat) : Int) :: ds) (by omega)
      refine ⟨D ++ [n % 10], ?_, ?_, fun _ => ?_⟩
      · rw [d1]
        refine congrArg pure (Prod.ext ?_ ?_)
        · simp only [List.length_append, List.length_singleton]
          push_cast
          ring
        · simp
      · intro d hd
        rcases List.mem_append.1 hd with hd | hd
        · exact d2 d hd
        · rw [List.mem_singleton] at hd; omega
      · by_cases h10 : n < 10
        · have hD : D = [] := by
            have h0 : n / 10 = 0 := by omega
            rw [h0, smallDigits, BigI.gt_i32_c (by unfold IsI32; omega) (by omega), pure_bind, decide_eq_false (by omega),
              if_neg (by decide)] at d1
            have hh : (e + 1, ((n % 10 : Nat) : Int) :: ds) = (e + 1 + (D.length : Int), D.map Int.ofNat ++ ((n % 10 : Nat) : Int) :: ds) := by
              have := congrArg (fun m : M (Int × List Int) => match m with | some (.ok v) => v | _ => (0, [])) d1
              exact this
            have h1 := congrArg Prod.fst hh
            simp only [] at h1
            exact List.length_eq_zero_iff.1 (by omega)
          rw [hD, Nat.toDigits_of_lt_base h10, Nat.mod_eq_of_lt h10]
          simpa using h
        · obtain ⟨r1, r2⟩ := d3 (by omega)
          constructor
          · rw [List.map_append, r1, Nat.toDigits_of_base_le (by decide) (by omega : 10 ≤ n)]
            rfl
          · cases D with
            | nil => exact absurd r1.symm Nat.toDigits_ne_nil
            | cons d E => simpa using r2

theorem popLen_c (M t : Nat) (l : List Int) :
    (popLen M (l.length + t) l.reverse).reverse = l.take (M - t) := by
  induction l using List.reverseRecOn with
  | nil => simp [popLen]
  | append_singleton l x ih =>
    rw [List.reverse_append, List.reverse_singleton, List.singleton_append, popLen, List.length_append, List.length_singleton]
    by_cases h : l.length + 1 + t > M
    · have e : l.length + 1 + t - 1 = l.length + t := by omega
      rw [if_pos h, e, ih, List.take_append_of_le_length (by omega)]
    · rw [if_neg h, List.take_of_length_le (by rw [List.length_append, List.length_singleton]; omega)]
      simp

theorem strip0_cons {d : Nat} (h : d ≠ 0) (l : List Nat) : UBig.strip0 (d :: l) = d :: UBig.strip0 l := by
  induction l using List.reverseRecOn with
  | nil => simp [UBig.strip0, h]
  | append_singleton l x ih =>
    rw [← List.cons_append, UBig.strip0_snoc, UBig.strip0_snoc, ih]
    split <;> rfl

theorem smallText_c {q : ℚ} (hd : (ofNat q.den).length ≤ 2 ^ 27) {A : Int} (h1 : A ≤ -4) (h2 : -9990 ≤ A)
    (h3 : |q| < 10 ^ A * (1 + 1 / 10 ^ 5)) (h4 : 10 ^ (A - 1) * (1 - 1 / 10 ^ 5) < |q|) (neg : Prop) [Decidable neg] (k : Nat) :
    ∃ N : Nat, N * 10 ^ (smallExp A - 9) ≤ |q| ∧ |q| < (N + 1) * 10 ^ (smallExp A - 9) ∧ N ≤ 1000010000 ∧
      (if A < -6 then 99998999 ≤ N else if A = -6 then 99 ≤ N else if A = -5 then 999 ≤ N else 9999 ≤ N) ∧
      smallText (ofRat q) A (if neg then ['-'] else []) k =
        pure (sciRat neg N (smallExp A - 9) (sciRoom neg (smallExp A - 9 + Nat.log 10 N) k + 1)) := by
  have hq : 0 ≤ |q| := abs_nonneg q
  obtain ⟨B, hB⟩ : ∃ B, B = smallExp A := ⟨_, rfl⟩
  have hAB : A ≤ B ∧ (A < -6 → B = A) ∧ (-6 ≤ A → B = 0) := by
    rw [hB]; unfold smallExp
    split <;> omega
  have e9 : (10 : ℚ) ^ (-B) * 1000000000 = (10 ^ (B - 9))⁻¹ := by
    rw [← zpow_neg, neg_sub, sub_eq_add_neg, add_comm, zpow_add₀ (by norm_num)]
    norm_cast
  have hp : (0 : ℚ) < 10 ^ (B - 9) := by positivity
  have hy : 0 ≤ |q| * 10 ^ (-B) * 1000000000 := by positivity
  have hy2 : |q| * 10 ^ (-B) * 1000000000 = |q| / 10 ^ (B - 9) := by rw [mul_assoc, e9, div_eq_mul_inv]
  rw [hy2] at hy
  obtain ⟨N, hN⟩ : ∃ N, N = ⌊|q| / 10 ^ (B - 9)⌋₊ := ⟨_, rfl⟩
  have f1 : (N : ℚ) * 10 ^ (B - 9) ≤ |q| := by
    rw [← le_div_iff₀ hp, hN]; exact Nat.floor_le hy
  have f2 : |q| < (N + 1 : ℚ) * 10 ^ (B - 9) := by
    rw [← div_lt_iff₀ hp, hN]; exact Nat.lt_floor_add_one _
  have hub : N ≤ 1000010000 := by
    rw [hN]
    refine Nat.floor_le_of_le ?_
    rw [div_le_iff₀ hp]
    refine h3.le.trans ?_
    have : (10 : ℚ) ^ A ≤ 10 ^ B := zpow_le_zpow_right₀ (by norm_num) hAB.1
    have e : (10 : ℚ) ^ B = 10 ^ (B - 9) * 1000000000 := by
      have : B = (B - 9) + 9 := by omega
      conv_lhs => rw [this, zpow_add₀ (by norm_num)]
      norm_cast
    rw [e] at this
    norm_num
    linarith
  have low : ∀ (c : Int) (m : Nat), A - 1 = B - 9 + c → ((m : ℚ) + 1 ≤ 10 ^ c * (1 - 1 / 10 ^ 5)) → m < N := by
    intro c m e hm
    rw [e, zpow_add₀ (by norm_num), mul_assoc, mul_comm] at h4
    have := lt_of_mul_lt_mul_right (lt_trans h4 f2) hp.le
    have : (m : ℚ) < N := by linarith
    exact_mod_cast this
  have hlow : if A < -6 then 99998999 ≤ N else if A = -6 then 99 ≤ N else if A = -5 then 999 ≤ N else 9999 ≤ N := by
    split
    · exact low 8 99998998 (by omega) (by norm_num)
    · split
      · exact low 2 98 (by omega) (by norm_num)
      · split
        · exact low 3 998 (by omega) (by norm_num)
        · have hm : A = -4 := by omega
          exact low 4 9998 (by omega) (by norm_num)
  have hN0 : 0 < N := by split at hlow <;> [omega; skip]; split at hlow <;> [omega; skip]; split at hlow <;> omega
  rw [← hB]
  refine ⟨N, f1, f2, hub, hlow, ?_⟩
  have hs : (if neg then ['-'] else [] : List Char).length = if neg then 1 else 0 := by split <;> rfl
  have hs2 : (if neg then 1 else 0 : Nat) ≤ 1 := by split <;> omega
  have hqt : qtrunc (|q| * 10 ^ (-B) * ((1000000000 : Int) : ℚ)) = (N : Int) := by
    push_cast
    rw [hy2, qtrunc_nonneg _ hy, hN, Int.natCast_floor_eq_floor hy]
  rw [smallText, smallScale_c hd h2, pure_bind, ← hB]
  simp only []
  rw [mul_i32_c _ (by unfold IsI32; omega) (by omega), pure_bind, truncate_bi_c, pure_bind, hqt]
  obtain ⟨D, d1, d2, d3⟩ := smallDigits_c N (B - 1 - 9) [] (by omega)
  obtain ⟨d3, d4⟩ := d3 hN0
  rw [d1, pure_bind]
  have hlog := UBig.log_eq_length N hN0
  have hlen : D.length = (Nat.toDigits 10 N).length := by rw [← d3, List.length_map]
  have hpos := @Nat.length_toDigits_pos 10 N
  have hx : B - 1 - 9 + (D.length : Int) = B - 9 + (Nat.log 10 N : Nat) := by omega
  simp only [List.append_nil]
  rw [hx, i64Str_expText, hs, sciRat]
  obtain ⟨d, E, rfl⟩ : ∃ d E, D = d :: E := by
    cases D with
    | nil => exact absurd d3.symm Nat.toDigits_ne_nil
    | cons d E => exact ⟨d, E, rfl⟩
  have hE : ∀ e ∈ E, e < 10 := fun e he => d2 e (by simp [he])
  have hd0 : d ≠ 0 := by simpa using d4
  rw [sciRoom]
  have hex : ('e' :: ((if B - 9 + (Nat.log 10 N : Int) < 0 then ['-'] else []) ++ Nat.toDigits 10 (B - 9 + (Nat.log 10 N : Int)).natAbs) : List Char) =
    expText (B - 9 + (Nat.log 10 N : Int)) := rfl
  simp only [← d3, List.map_cons, List.tail_cons, List.take_succ_cons, List.take_zero, Nat.add_sub_cancel, hex]
  generalize (if neg then 1 else 0 : Nat) = s at *
  generalize (if neg then ['-'] else [] : List Char) = S at *
  generalize expText (B - 9 + (Nat.log 10 N : Int)) = ex
  obtain ⟨M, hM⟩ : ∃ M, M = max k (ex.length + 3) := ⟨_, rfl⟩
  rw [← hM]
  have hM2 : ex.length + 3 ≤ M := by omega
  have t0 : (d :: E).length + s + ex.length + 1 = (d :: E).length + (s + ex.length + 1) := by omega
  have t1 := popLen_c M (s + ex.length + 1) ((d :: E).map Int.ofNat)
  obtain ⟨m, hm⟩ : ∃ m, M - (s + ex.length + 1) = m + 1 := ⟨M - (s + ex.length + 1) - 1, by omega⟩
  have hm2 : M - ex.length - s - 2 = m := by omega
  rw [hm, ← List.map_take, List.take_succ_cons, List.length_map] at t1
  have t2 : popLen M ((d :: E).length + (s + ex.length + 1)) ((d :: E).map Int.ofNat).reverse = ((d :: E.take m).map Int.ofNat).reverse := by
    rw [← t1, List.reverse_reverse]
  have t3 : (Int.ofNat d :: E.map Int.ofNat).length = (d :: E).length := by simp
  have t4 : (Int.ofNat d :: E.map Int.ofNat) = (d :: E).map Int.ofNat := rfl
  have hE2 : ∀ e ∈ E.take m, e < 10 := fun e he => hE e (List.mem_of_mem_take he)
  rw [t3, t0, t4, t2, popZeros_zero, strip0_cons hd0, pointStr_map (d2 d (by simp)) (fun e he => hE2 e (UBig.mem_strip0 he)), pure_bind,
    hm2, ← List.map_take, UBig.stripZeros_map _ hE2]
  simp

end Ratio
end Hmath
