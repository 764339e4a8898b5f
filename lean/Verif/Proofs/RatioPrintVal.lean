import Verif.Proofs.RatioPrint
import Verif.Props.RatioStr

/-!
# The value of decimal text
-/

namespace Hmath
namespace Ratio
open Props (mem_toDigits head_toDigits Parses)

/-- the value of digits behind the point -/
def fv : List Nat → ℚ
  | [] => 0
  | d :: D => (d + fv D) / 10

theorem fv_append (D E : List Nat) : fv (D ++ E) = fv D + fv E / 10 ^ D.length := by
  induction D with
  | nil => simp [fv]
  | cons d D ih =>
    rw [List.cons_append, fv, fv, ih, List.length_cons, pow_succ]
    field_simp
    ring

theorem fv_nonneg (D : List Nat) : 0 ≤ fv D := by
  induction D with
  | nil => exact le_refl _
  | cons d D ih => rw [fv]; positivity

theorem fv_replicate (k : Nat) : fv (List.replicate k 0) = 0 := by
  induction k with
  | zero => rfl
  | succ k ih => rw [List.replicate_succ, fv, ih]; norm_num

theorem strip0_split (D : List Nat) : ∃ k, D = UBig.strip0 D ++ List.replicate k 0 := by
  induction D using List.reverseRecOn with
  | nil => exact ⟨0, rfl⟩
  | append_singleton D x ih =>
    rw [UBig.strip0_snoc]
    by_cases h : x = 0
    · obtain ⟨k, hk⟩ := ih
      refine ⟨k + 1, ?_⟩
      rw [if_pos h, h, List.replicate_succ', ← List.append_assoc, ← hk]
    · rw [if_neg h]
      exact ⟨0, by simp⟩

theorem fv_strip0 (D : List Nat) : fv (UBig.strip0 D) = fv D := by
  obtain ⟨k, hk⟩ := strip0_split D
  conv_rhs => rw [hk, fv_append, fv_replicate]
  simp

theorem fv_strip0_take (D : List Nat) (c : Nat) : fv ((UBig.strip0 D).take c) = fv (D.take c) := by
  obtain ⟨k, hk⟩ := strip0_split D
  conv_rhs => rw [hk, List.take_append, fv_append, List.take_replicate, fv_replicate]
  simp

/-- the digits of `q` behind the point -/
theorem fv_decimals (q : ℚ) (d : Nat) :
    (⌊q⌋₊ : ℚ) + fv ((List.range d).map (decimalDigit q)) = (⌊q * 10 ^ d⌋₊ : ℚ) / 10 ^ d := by
  induction d with
  | zero => simp [fv]
  | succ d ih =>
    rw [List.range_succ, List.map_append, fv_append, ← add_assoc, ih, List.length_map, List.length_range, List.map_singleton, fv, fv,
      decimalDigit]
    have e : ⌊q * 10 ^ d⌋₊ = ⌊q * 10 ^ (d + 1)⌋₊ / 10 := by
      have := Nat.floor_div_natCast (q * 10 ^ (d + 1)) 10
      rw [← this]
      congr 1
      push_cast
      rw [pow_succ]
      field_simp
    have h := Nat.div_add_mod ⌊q * 10 ^ (d + 1)⌋₊ 10
    rw [← e] at h
    have h' : (10 : ℚ) * (⌊q * 10 ^ d⌋₊ : ℚ) + ((⌊q * 10 ^ (d + 1)⌋₊ % 10 : Nat) : ℚ) = (⌊q * 10 ^ (d + 1)⌋₊ : ℚ) := by
      exact_mod_cast h
    rw [← h', pow_succ]
    field_simp
    ring

/-! ## literals -/

theorem digit_facts : ∀ d < 10, Nat.digitChar d ≠ '_' ∧ (Nat.digitChar d).toNat - '0'.toNat = d ∧
    Nat.digitChar d ∈ "0123456789_".toList ∧ Nat.digitChar d ≠ 'e' ∧ Nat.digitChar d ≠ 'E' := by decide

theorem decVal_snoc (s : List Char) {d : Nat} (h : d < 10) : decVal (s ++ [Nat.digitChar d]) = 10 * decVal s + d := by
  obtain ⟨h1, h2, -⟩ := digit_facts d h
  rw [decVal, List.foldl_append, List.foldl_cons, List.foldl_nil, if_neg h1, h2]
  rfl

theorem decVal_toDigits (n : Nat) : decVal (Nat.toDigits 10 n) = n := by
  induction n using Nat.strong_induction_on with
  | _ n ih =>
    by_cases h : n < 10
    · rw [Nat.toDigits_of_lt_base h]
      have := decVal_snoc [] h
      rw [List.nil_append] at this
      rw [this]
      simp [decVal]
    · rw [Nat.toDigits_of_base_le (by decide) (by omega), decVal_snoc _ (by omega), ih _ (by omega)]
      omega

theorem decVal_fv (D : List Nat) (h : ∀ d ∈ D, d < 10) :
    (decVal (D.map Nat.digitChar) : ℚ) / 10 ^ decLen (D.map Nat.digitChar) = fv D := by
  have hl : ∀ D : List Nat, (∀ d ∈ D, d < 10) → decLen (D.map Nat.digitChar) = D.length := by
    intro D h
    rw [decLen, List.filter_eq_self.2, List.length_map]
    intro c hc
    obtain ⟨d, hd, rfl⟩ := List.mem_map.1 hc
    simp [(digit_facts d (h d hd)).1]
  rw [hl D h]
  induction D using List.reverseRecOn with
  | nil => simp [fv, decVal]
  | append_singleton D x ih =>
    have h1 : ∀ d ∈ D, d < 10 := fun d hd => h d (by simp [hd])
    have hx : x < 10 := h x (by simp)
    rw [List.map_append, List.map_singleton, decVal_snoc _ hx, fv_append, ← ih h1, fv, fv, List.length_append, List.length_singleton,
      pow_succ]
    push_cast
    field_simp
    ring

theorem isDec_toDigits (n : Nat) : IsDec (Nat.toDigits 10 n) := by
  intro c hc
  obtain ⟨d, hd, rfl⟩ := mem_toDigits (by decide) n c hc
  exact (digit_facts d hd).2.2.1

theorem isDec_map {D : List Nat} (h : ∀ d ∈ D, d < 10) : IsDec (D.map Nat.digitChar) := by
  intro c hc
  obtain ⟨d, hd, rfl⟩ := List.mem_map.1 hc
  exact (digit_facts d (h d hd)).2.2.1

theorem first_toDigits (n : Nat) : Nat.toDigits 10 n = ['0'] ∨ ∃ c cs, Nat.toDigits 10 n = c :: cs ∧ c ≠ '0' ∧ c ≠ '_' := by
  rcases Nat.eq_zero_or_pos n with rfl | h
  · exact .inl (by decide)
  · have h1 := head_toDigits (b := 10) (by decide) (by decide) h
    have h2 := mem_toDigits (b := 10) (by decide) n
    right
    cases hd : Nat.toDigits 10 n with
    | nil => exact absurd hd Nat.toDigits_ne_nil
    | cons c t =>
      rw [hd] at h1 h2
      refine ⟨c, t, rfl, ?_, ?_⟩
      · rintro rfl
        exact h1 rfl
      · obtain ⟨d, hd', rfl⟩ := h2 c (by simp)
        exact (digit_facts d hd').1

theorem parseInt_i64Str (x : Int) : parseInt (i64Str x) = .ok x := by
  have := parseInt_dec (isDec_toDigits x.natAbs) (first_toDigits _) (decide (x < 0))
  rw [decVal_toDigits] at this
  rw [i64Str]
  by_cases h : x < 0
  · rw [decide_eq_true h] at this
    rw [if_pos h]
    simp only [if_true] at this
    rw [this]
    congr 1
    omega
  · rw [decide_eq_false h] at this
    rw [if_neg h]
    simp only [Bool.false_eq_true, if_false] at this
    rw [this]
    congr 1
    omega

/-- the text of a number reads back -/
theorem parses_parts (neg : Prop) [Decidable neg] (n : Nat) {D : List Nat} (h : ∀ d ∈ D, d < 10) (ex : Option Int)
    (hx : ∀ x, ex = some x → -2 ^ 31 < x ∧ x < 2 ^ 31) {t : List Char}
    (ht : t = (if neg then ['-'] else []) ++ (Nat.toDigits 10 n ++ (if D.map Nat.digitChar = [] then [] else '.' :: D.map Nat.digitChar)) ++
      (match ex with | none => [] | some x => expText x)) (hl : t.length < 2 ^ 33) :
    Parses t ((if neg then -1 else 1) * (n + fv D) * 10 ^ (ex.getD 0)) := by
  by_cases hint : D = [] ∧ ex = none
  · obtain ⟨rfl, rfl⟩ := hint
    have := parseInt_dec (isDec_toDigits n) (first_toDigits n) (decide neg)
    rw [decVal_toDigits] at this
    have e1 : t = (if decide neg = true then ['-'] else []) ++ Nat.toDigits 10 n := by rw [ht]; simp
    rw [← e1] at this
    have := Props.C28_integer this (.inl ?_)
    · convert this using 1
      push_cast
      simp [fv]
    · rw [e1]
      have : ∀ c ∈ Nat.toDigits 10 n, c ≠ 'e' ∧ c ≠ 'E' := by
        intro c hc
        obtain ⟨d, hd, rfl⟩ := mem_toDigits (by decide) n c hc
        exact (digit_facts d hd).2.2.2
      constructor
      · intro hm
        rcases List.mem_append.1 hm with hm | hm
        · split at hm <;> simp at hm
        · exact (this _ hm).1 rfl
      · intro hm
        rcases List.mem_append.1 hm with hm | hm
        · split at hm <;> simp at hm
        · exact (this _ hm).2 rfl
  · obtain ⟨l, hl'⟩ : ∃ l : RatLit, l = ⟨decide neg, Nat.toDigits 10 n, if D = [] then none else some (D.map Nat.digitChar),
      ex.map fun x => ('e', i64Str x)⟩ := ⟨_, rfl⟩
    have htext : l.text = t := by
      rw [ht, hl', RatLit.text]
      simp only [decide_eq_true_eq, List.map_eq_nil_iff]
      by_cases hD : D = []
      · cases ex with
        | none => exact absurd ⟨hD, rfl⟩ hint
        | some x => simp [hD, expText, i64Str]
      · cases ex with
        | none => simp [hD]
        | some x => simp [hD, expText, i64Str]
    have hwf : l.WF := by
      rw [hl']
      refine ⟨isDec_toDigits n, first_toDigits n, ?_, ?_, ?_, ?_⟩
      · intro F hF
        simp only [] at hF
        split at hF
        · simp at hF
        · injection hF with hF
          rw [← hF]
          exact isDec_map h
      · intro F hF _
        simp only [] at hF
        split at hF
        · simp at hF
        · injection hF with hF
          rw [← hF]
          intro hc
          have : '_' ∈ (D.map Nat.digitChar).dropWhile (fun c => decide (c = '0')) := List.mem_of_mem_head? hc
          obtain ⟨d, hd, hd2⟩ := List.mem_map.1 ((List.dropWhile_sublist _).subset this)
          exact (digit_facts d (h d hd)).1 hd2
      · intro e X he
        cases ex with
        | none => simp at he
        | some x =>
          simp only [Option.map_some, Option.some.injEq, Prod.mk.injEq] at he
          obtain ⟨rfl, rfl⟩ := he
          exact ⟨.inl rfl, x, parseInt_i64Str x⟩
      · by_cases hD : D = []
        · right
          cases ex with
          | none => exact absurd ⟨hD, rfl⟩ hint
          | some x => simp
        · left
          simp [hD]
    have hexpo : l.expo = ex.getD 0 := by
      rw [hl', RatLit.expo]
      cases ex with
      | none => rfl
      | some x => simp [parseInt_i64Str]
    have hval : l.value = (if neg then -1 else 1) * (n + fv D) * 10 ^ (ex.getD 0) := by
      rw [RatLit.value, hexpo, hl']
      simp only [decide_eq_true_eq, decVal_toDigits, RatLit.fracDigits]
      congr 3
      by_cases hD : D = []
      · simp [hD, fv, decVal]
      · rw [if_neg hD, Option.getD_some, decVal_fv D h]
    have := Props.C28_accepts hwf (by rw [htext]; exact hl) (by
      rw [hexpo]
      cases ex with
      | none => simp
      | some x => exact hx x rfl)
    rw [htext, hval] at this
    exact this

theorem fixed_parses (neg : Prop) [Decidable neg] (q : ℚ) (d : Nat) (hl : (fixedRat neg q d).length < 2 ^ 33) :
    Parses (fixedRat neg q d) ((if neg then -1 else 1) * ((⌊q * 10 ^ d⌋₊ : ℚ) / 10 ^ d)) := by
  have e3 : ∀ x ∈ (List.range d).map (decimalDigit q), x < 10 := by
    intro x hx
    obtain ⟨i, -, rfl⟩ := List.mem_map.1 hx
    exact Nat.mod_lt _ (by norm_num)
  have e4 : (List.range d).map (fun i => Nat.digitChar (decimalDigit q i)) = ((List.range d).map (decimalDigit q)).map Nat.digitChar := by
    rw [List.map_map]; rfl
  have := parses_parts neg ⌊q⌋₊ (D := UBig.strip0 ((List.range d).map (decimalDigit q))) (fun x hx => e3 x (UBig.mem_strip0 hx)) none
    (by simp) (t := fixedRat neg q d) (by
      rw [fixedRat]
      simp only [e4, UBig.stripZeros_map _ e3, List.append_nil, List.append_assoc]) hl
  rw [fv_strip0, fv_decimals, Option.getD_none, zpow_zero, mul_one] at this
  exact this

theorem fv_le (D : List Nat) (h : ∀ d ∈ D, d < 10) : fv D + 1 / 10 ^ D.length ≤ 1 := by
  induction D with
  | nil => simp [fv]
  | cons d D ih =>
    have h1 := ih fun e he => h e (by simp [he])
    have h2 : (d : ℚ) ≤ 9 := by
      have := h d (by simp)
      exact_mod_cast (by omega : d ≤ 9)
    have e : (1 : ℚ) / 10 ^ (d :: D).length = 1 / 10 ^ D.length / 10 := by
      rw [List.length_cons, pow_succ, div_div]
    rw [fv, e, ← add_div, div_le_one (by norm_num)]
    linarith

theorem fv_take (D : List Nat) (h : ∀ d ∈ D, d < 10) (c : Nat) : fv (D.take c) ≤ fv D ∧
    fv D + 1 / 10 ^ D.length ≤ fv (D.take c) + 1 / 10 ^ min c D.length := by
  have e : fv D = fv (D.take c) + fv (D.drop c) / 10 ^ min c D.length := by
    conv_lhs => rw [← List.take_append_drop c D, fv_append, List.length_take]
  have e2 : (1 : ℚ) / 10 ^ D.length = 1 / 10 ^ (D.drop c).length / 10 ^ min c D.length := by
    rw [div_div, ← pow_add, List.length_drop]
    congr 2
    omega
  have h1 := fv_nonneg (D.drop c)
  have h2 := fv_le (D.drop c) fun d hd => h d (List.mem_of_mem_drop hd)
  constructor
  · rw [e]
    have : 0 ≤ fv (D.drop c) / 10 ^ min c D.length := by positivity
    linarith
  · rw [e, e2, add_assoc, ← add_div]
    have := (div_le_div_iff_of_pos_right (show (0 : ℚ) < 10 ^ min c D.length by positivity)).2 h2
    linarith

/-- the digits of a number -/
theorem digits_of {N : Nat} (hN : 0 < N) : ∃ (d : Nat) (E : List Nat), (d :: E).map Nat.digitChar = Nat.toDigits 10 N ∧ d < 10 ∧
    (∀ e ∈ E, e < 10) ∧ E.length = Nat.log 10 N ∧ (N : ℚ) = (d + fv E) * 10 ^ Nat.log 10 N := by
  obtain ⟨D, -, d2, d3⟩ := UBig.sciLoop_eq N 0 [] hN
  have hlog := UBig.log_eq_length N hN
  cases D with
  | nil => exact absurd d3.symm Nat.toDigits_ne_nil
  | cons d E =>
    have hE : ∀ e ∈ E, e < 10 := fun e he => d2 e (by simp [he])
    have hlen : E.length = Nat.log 10 N := by rw [hlog, ← d3]; simp
    refine ⟨d, E, d3, d2 d (by simp), hE, hlen, ?_⟩
    have h1 := decVal_fv (d :: E) d2
    have h2 : decLen ((d :: E).map Nat.digitChar) = Nat.log 10 N + 1 := by
      rw [decLen, List.filter_eq_self.2, List.length_map, List.length_cons, hlen]
      intro c hc
      obtain ⟨d, hd, rfl⟩ := List.mem_map.1 hc
      simp [(digit_facts d (d2 d hd)).1]
    rw [h2, d3, decVal_toDigits, fv, pow_succ, div_eq_div_iff (by positivity) (by norm_num)] at h1
    linarith

theorem sci_value {N : Nat} {d : Nat} {E : List Nat} (hE : ∀ e ∈ E, e < 10) (hlen : E.length = Nat.log 10 N)
    (hN : (N : ℚ) = (d + fv E) * 10 ^ Nat.log 10 N) {q : ℚ} {X : Int} (h1 : N * 10 ^ X ≤ q) (h2 : q < (N + 1) * 10 ^ X) (c : Nat) :
    (d + fv (E.take c)) * 10 ^ (X + Nat.log 10 N) ≤ q ∧
      q < (d + fv (E.take c)) * 10 ^ (X + Nat.log 10 N) + 10 ^ (X + Nat.log 10 N - (min c (Nat.log 10 N) : Nat)) := by
  obtain ⟨t1, t2⟩ := fv_take E hE c
  rw [hlen] at t2
  generalize Nat.log 10 N = L at *
  have e : (10 : ℚ) ^ (X + L) = 10 ^ L * 10 ^ X := by rw [zpow_add₀ (by norm_num), zpow_natCast, mul_comm]
  have hp : (0 : ℚ) < 10 ^ (X + L) := by positivity
  have hN1 : (N : ℚ) * 10 ^ X = (d + fv E) * 10 ^ (X + L) := by rw [hN, e]; ring
  have hN2 : ((N : ℚ) + 1) * 10 ^ X = (d + (fv E + 1 / 10 ^ L)) * 10 ^ (X + L) := by
    rw [hN, e]; field_simp; ring
  constructor
  · refine le_trans ?_ h1
    rw [hN1]
    exact mul_le_mul_of_nonneg_right (by linarith) hp.le
  · refine lt_of_lt_of_le h2 ?_
    have hz : (10 : ℚ) ^ (X + L - (min c L : Nat)) = 1 / 10 ^ min c L * 10 ^ (X + (L : Int)) := by
      rw [zpow_sub₀ (by norm_num), zpow_natCast]; ring
    rw [hN2, hz, ← add_mul]
    exact mul_le_mul_of_nonneg_right (by linarith) hp.le

theorem sciCut_parses (neg : Prop) [Decidable neg] {N : Nat} (hN : 0 < N) {q : ℚ} {X : Int} (h1 : N * 10 ^ X ≤ q) (h2 : q < (N + 1) * 10 ^ X)
    (c : Nat) (hx : -2 ^ 31 < X + Nat.log 10 N ∧ X + Nat.log 10 N < 2 ^ 31) (hl : (sciCutRat neg N X c).length < 2 ^ 33) :
    ∃ v, Parses (sciCutRat neg N X c) ((if neg then -1 else 1) * v) ∧ v ≤ q ∧
      q < v + 10 ^ (X + Nat.log 10 N - (min c (Nat.log 10 N) : Nat)) := by
  obtain ⟨d, E, e1, e2, e3, e4, e5⟩ := digits_of hN
  have e3' : ∀ e ∈ (UBig.strip0 E).take c, e < 10 := fun e he => e3 e (UBig.mem_strip0 (List.mem_of_mem_take he))
  obtain ⟨v1, v2⟩ := sci_value e3 e4 e5 h1 h2 c
  have := parses_parts neg d e3' (some (X + Nat.log 10 N)) (by rintro x ⟨⟩; exact hx) (t := sciCutRat neg N X c) (by
      rw [sciCutRat]
      simp only [← e1, List.map_cons, List.tail_cons, List.take_succ_cons, List.take_zero]
      rw [UBig.stripZeros_map _ e3, Nat.toDigits_of_lt_base e2, List.map_take]) hl
  rw [fv_strip0_take, Option.getD_some, mul_assoc] at this
  exact ⟨_, this, v1, v2⟩

theorem sciRat_parses (neg : Prop) [Decidable neg] {N : Nat} (hN : 0 < N) {q : ℚ} {X : Int} (h1 : N * 10 ^ X ≤ q) (h2 : q < (N + 1) * 10 ^ X)
    (c : Nat) (hx : -2 ^ 31 < X + Nat.log 10 N ∧ X + Nat.log 10 N < 2 ^ 31) (hl : (sciRat neg N X (c + 1)).length < 2 ^ 33) :
    ∃ v, Parses (sciRat neg N X (c + 1)) ((if neg then -1 else 1) * v) ∧ v ≤ q ∧
      q < v + 10 ^ (X + Nat.log 10 N - (min c (Nat.log 10 N) : Nat)) := by
  obtain ⟨d, E, e1, e2, e3, e4, e5⟩ := digits_of hN
  have e3' : ∀ e ∈ E.take c, e < 10 := fun e he => e3 e (List.mem_of_mem_take he)
  obtain ⟨v1, v2⟩ := sci_value e3 e4 e5 h1 h2 c
  have := parses_parts neg d (D := UBig.strip0 (E.take c)) (fun e he => e3' e (UBig.mem_strip0 he)) (some (X + Nat.log 10 N))
    (by rintro x ⟨⟩; exact hx) (t := sciRat neg N X (c + 1)) (by
      rw [sciRat]
      simp only [← e1, List.map_cons, List.tail_cons, List.take_succ_cons, List.take_zero, Nat.add_sub_cancel]
      rw [← List.map_take, UBig.stripZeros_map _ e3', Nat.toDigits_of_lt_base e2]
      rfl) hl
  rw [fv_strip0, Option.getD_some, mul_assoc] at this
  exact ⟨_, this, v1, v2⟩

end Ratio
end Hmath
