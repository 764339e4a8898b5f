import Verif.Proofs.Fp192Str
import Verif.Proofs.SciRatio
import Verif.Props.Str
import Verif.Model.Fp192Print

/-!
# Printing of 192-bit floating point numbers
-/

namespace Hmath
namespace F192

open Props (mem_toDigits head_toDigits)

/-! ### the digits of a number -/

theorem isDigit_char : ∀ d < 10, isDigit (Nat.digitChar d) = true ∧ (Nat.digitChar d).toNat - 48 = d := by decide

theorem toDigits_isDigit {n : Nat} : ∀ c ∈ Nat.toDigits 10 n, isDigit c = true := by
  intro c hc
  obtain ⟨d, hd, rfl⟩ := mem_toDigits (by decide) n c hc
  exact (isDigit_char d hd).1

theorem dval_toDigits (n : Nat) : dval (Nat.toDigits 10 n) 0 = n := by
  induction n using Nat.strong_induction_on with
  | _ n ih =>
    by_cases h : n < 10
    · rw [Nat.toDigits_of_lt_base h, dval, dval, (isDigit_char n h).2, Nat.zero_mul, Nat.zero_add]
    · rw [Nat.toDigits_of_base_le (by decide) (by omega), dval_append, ih _ (by omega), dval, dval, (isDigit_char _ (by omega)).2]
      omega

theorem toDigits_cons {n : Nat} (h : 0 < n) : ∃ c t, Nat.toDigits 10 n = c :: t ∧ isDigit c = true ∧ c ≠ '0' ∧ (∀ c ∈ t, isDigit c = true) := by
  have h1 := head_toDigits (b := 10) (by decide) (by decide) h
  have h2 := @toDigits_isDigit n
  cases hd : Nat.toDigits 10 n with
  | nil => exact absurd hd Nat.toDigits_ne_nil
  | cons c t =>
    rw [hd] at h1 h2
    refine ⟨c, t, rfl, h2 c (by simp), ?_, fun c hc => h2 c (by simp [hc])⟩
    rintro rfl
    exact h1 rfl

theorem length_toDigits {n : Nat} (h : 0 < n) : (Nat.toDigits 10 n).length = Nat.log 10 n + 1 := by
  have hp := @Nat.length_toDigits_pos 10 n
  rw [UBig.log_eq_length n h]
  omega

/-- the value of a piece -/
theorem dval_take (s : Str) (hs : ∀ c ∈ s, isDigit c = true) (k : Nat) : dval (s.take k) 0 * 10 ^ (s.length - k) ≤ dval s 0 ∧
    dval s 0 < (dval (s.take k) 0 + 1) * 10 ^ (s.length - k) := by
  have h1 : dval s 0 = dval (s.take k) 0 * 10 ^ (s.drop k).length + dval (s.drop k) 0 := by
    rw [← dval_eq, ← dval_append, List.take_append_drop]
  have h2 := dval_lt (s.drop k) (fun c hc => hs c (List.mem_of_mem_drop hc))
  rw [List.length_drop] at h1 h2
  rw [h1, Nat.add_mul, Nat.one_mul]
  omega

theorem dval_replicate (k : Nat) (s : Str) : dval (List.replicate k '0' ++ s) 0 = dval s 0 := by
  induction k with
  | zero => rfl
  | succ k ih => rw [List.replicate_succ, List.cons_append, dval, Nat.zero_mul]; exact ih

/-- zeros at the end -/
theorem trimEnd_c (s : Str) : ∃ k, s = trimEnd s ++ List.replicate k '0' := by
  have key : ∀ t : Str, ∃ k, t = List.replicate k '0' ++ trimZeros t := by
    intro t
    induction t with
    | nil => exact ⟨0, rfl⟩
    | cons c t ih =>
      rw [trimZeros]
      by_cases hc : c = '0'
      · obtain ⟨k, hk⟩ := ih
        refine ⟨k + 1, ?_⟩
        rw [if_pos hc, List.replicate_succ, List.cons_append, ← hk, hc]
      · rw [if_neg hc]
        exact ⟨0, rfl⟩
  obtain ⟨k, hk⟩ := key s.reverse
  refine ⟨k, ?_⟩
  have := congrArg List.reverse hk
  rw [List.reverse_reverse, List.reverse_append, List.reverse_replicate] at this
  exact this

theorem trimEnd_keep {c : Char} (h : c ≠ '0') (s t : Str) : ∃ u k, trimEnd (s ++ c :: t) = s ++ c :: u ∧ t = u ++ List.replicate k '0' := by
  have key : ∀ a b : Str, trimZeros (a ++ c :: b) = trimZeros a ++ (c :: b) := by
    intro a b
    induction a with
    | nil => rw [List.nil_append]; conv_lhs => rw [trimZeros]
             rw [if_neg h]; rfl
    | cons d a ih =>
      rw [List.cons_append, trimZeros, trimZeros]
      by_cases hd : d = '0'
      · rw [if_pos hd, if_pos hd, ih]
      · rw [if_neg hd, if_neg hd]; rfl
  obtain ⟨k, hk⟩ := trimEnd_c t
  refine ⟨trimEnd t, k, ?_, hk⟩
  rw [trimEnd, List.reverse_append, List.reverse_cons, List.append_assoc, List.singleton_append, key, List.reverse_append, List.reverse_cons,
    List.reverse_reverse, List.append_assoc, List.singleton_append]
  rfl

theorem dval_zeros (s : Str) (k : Nat) : dval (s ++ List.replicate k '0') 0 = dval s 0 * 10 ^ k := by
  rw [dval_append, dval_eq, List.length_replicate]
  have : dval (List.replicate k '0') 0 = 0 := by
    have := dval_replicate k []
    rw [List.append_nil] at this
    exact this
  rw [this, Nat.add_zero]

/-! ### texts -/

/-- a decimal number without sign: `v` is the number of its digits, `y` the weight of the last one and `l` their count -/
def DT (s : Str) (v : Nat) (y : Int) (l : Nat) : Prop :=
  ∃ ip fp ep x, s = ip ++ (fp ++ ep) ∧ (ip = ['0'] ∨ ∃ c t, ip = c :: t ∧ isDigit c = true ∧ c ≠ '0' ∧ ∀ c ∈ t, isDigit c = true) ∧
    ((fp = [] ∧ v = dval ip 0 ∧ y = x ∧ l = ip.length) ∨
      ∃ t, fp = '.' :: t ∧ (∀ c ∈ t, isDigit c = true) ∧ v = dval (ip ++ t) 0 ∧ y = x - t.length ∧ l = ip.length + t.length) ∧
    (ep = [] ∧ x = 0 ∨ ∃ u, ep = 'e' :: u ∧ IntLit u x)

theorem log10Loop_c : ∀ (n r : Nat), 0 < n → r + n < 4294967296 → log10Loop n r = pure (r + Nat.log 10 n) := by
  intro n
  induction n using Nat.strong_induction_on with
  | _ n ih =>
    intro r h0 hr
    rw [log10Loop]
    by_cases h : n ≥ 10
    · rw [if_pos h, u32Add, uAdd_eq (by omega), pure_bind, ih (n / 10) (by omega) _ (by omega) (by omega), Nat.log_of_one_lt_of_le (by decide) h]
      congr 1
      omega
    · rw [if_neg h, Nat.log_of_lt (by omega)]
      rfl

theorem log10_c : ∀ n : Nat, 0 < n → n < 10 ^ 27 → log10 n = pure (Nat.log 10 n) := by
  intro n
  induction n using Nat.strong_induction_on with
  | _ n ih =>
    intro h0 h
    rw [log10]
    by_cases hm : n > 1000000000
    · have h1 : Nat.log 10 (n / 1000000000) + 9 = Nat.log 10 n := by
        have : Nat.log 10 (n / 10 ^ 9) = Nat.log 10 n - 9 := by rw [Nat.log_div_base_pow]
        rw [show (1000000000 : Nat) = 10 ^ 9 by norm_num, this]
        have : 9 ≤ Nat.log 10 n := (Nat.le_log_iff_pow_le (by decide) (by omega)).2 (by omega)
        omega
      have h2 : Nat.log 10 n < 27 := Nat.log_lt_of_lt_pow (by omega) h
      rw [if_pos hm, ih (n / 1000000000) (by omega) (by omega) (lt_of_le_of_lt (Nat.div_le_self _ _) h), pure_bind, u32Add, uAdd_eq (by omega), h1]
    · rw [if_neg hm, log10Loop_c n 0 h0 (by omega), Nat.zero_add]

theorem ip_toDigits {n : Nat} (h : 0 < n) : Nat.toDigits 10 n = ['0'] ∨
    ∃ c t, Nat.toDigits 10 n = c :: t ∧ isDigit c = true ∧ c ≠ '0' ∧ ∀ c ∈ t, isDigit c = true := Or.inr (toDigits_cons h)

theorem intText_c (e : Int) : IntLit (sciText.intText e) e := by
  refine ⟨Nat.toDigits 10 e.natAbs, Nat.toDigits_ne_nil, toDigits_isDigit, ?_⟩
  rw [dval_toDigits, sciText.intText]
  by_cases h : e < 0
  · right; right
    rw [if_pos h]
    exact ⟨rfl, by omega⟩
  · left
    rw [if_neg h]
    exact ⟨rfl, by omega⟩

/-- an integer -/
theorem dt_int {n : Nat} (h : 0 < n) : DT (Nat.toDigits 10 n) n 0 (Nat.log 10 n + 1) :=
  ⟨Nat.toDigits 10 n, [], [], 0, by simp, ip_toDigits h, Or.inl ⟨rfl, (dval_toDigits n).symm, rfl, (length_toDigits h).symm⟩, Or.inl ⟨rfl, rfl⟩⟩

/-- an integer and an exponent -/
theorem dt_exp {n : Nat} (h : 0 < n) {u : Str} {e : Int} (hu : IntLit u e) : DT (Nat.toDigits 10 n ++ 'e' :: u) n e (Nat.log 10 n + 1) :=
  ⟨Nat.toDigits 10 n, [], 'e' :: u, e, by simp, ip_toDigits h, Or.inl ⟨rfl, (dval_toDigits n).symm, rfl, (length_toDigits h).symm⟩, Or.inr ⟨u, rfl, hu⟩⟩

/-- a point after `k` digits -/
theorem dt_point {n k : Nat} (h : 0 < n) (hk : 0 < k) (hk' : k ≤ Nat.log 10 n + 1) {ep : Str} {e : Int} (hu : ep = [] ∧ e = 0 ∨ ∃ u, ep = 'e' :: u ∧ IntLit u e) :
    DT ((Nat.toDigits 10 n).take k ++ ('.' :: (Nat.toDigits 10 n).drop k ++ ep)) n (e - (Nat.log 10 n + 1 - k : Nat)) (Nat.log 10 n + 1) := by
  refine ⟨(Nat.toDigits 10 n).take k, '.' :: (Nat.toDigits 10 n).drop k, ep, e, rfl, ?_, Or.inr ⟨_, rfl, fun c hc => toDigits_isDigit c (List.mem_of_mem_drop hc), ?_, ?_, ?_⟩, hu⟩
  · obtain ⟨c, t, h1, h2, h3, h4⟩ := toDigits_cons h
    obtain ⟨j, rfl⟩ : ∃ j, k = j + 1 := ⟨k - 1, by omega⟩
    exact Or.inr ⟨c, t.take j, by rw [h1]; rfl, h2, h3, fun c hc => h4 c (List.mem_of_mem_take hc)⟩
  · rw [List.take_append_drop, dval_toDigits]
  · rw [List.length_drop, length_toDigits h]
  · rw [List.length_take, List.length_drop, length_toDigits h]
    omega

theorem sciText_c {n : Nat} (h : 0 < n) (e : Int) : DT (sciText n e) n (e - Nat.log 10 n) (Nat.log 10 n + 1) := by
  have := dt_point (k := 1) h (by decide) (by omega) (Or.inr ⟨_, rfl, intText_c e⟩)
  rw [Nat.add_sub_cancel] at this
  rw [sciText]
  exact this

theorem posText_c {n : Nat} {exp : Int} (h : 0 < n) (hn : n < 10 ^ 19) (h0 : 0 ≤ exp) (h1 : exp < 4294967200) :
    ∃ s v y l, posText n exp (Nat.log 10 n) = pure s ∧ DT s v y l ∧ l ≤ 21 ∧ 0 ≤ y ∧ y ≤ exp ∧ (v : ℚ) * 10 ^ y = n * 10 ^ exp := by
  obtain ⟨e, rfl⟩ := Int.eq_ofNat_of_zero_le h0
  have hlog : Nat.log 10 n < 19 := Nat.log_lt_of_lt_pow (by omega) hn
  have he : (((e : Int)) % 4294967296).toNat = e := by omega
  unfold posText
  simp only []
  rw [he, u32Add, uAdd_eq (by omega), pure_bind]
  by_cases hs : e + Nat.log 10 n < 10
  · have hlt : n * 10 ^ e < 10 ^ 10 := by
      have h2 : n < 10 ^ (Nat.log 10 n + 1) := Nat.lt_pow_succ_log_self (by decide) n
      have h3 : n * 10 ^ e < 10 ^ (Nat.log 10 n + 1) * 10 ^ e := Nat.mul_lt_mul_of_pos_right h2 (by positivity)
      rw [← Nat.pow_add] at h3
      exact lt_of_lt_of_le h3 (Nat.pow_le_pow_right (by decide) (by omega))
    have hp : 0 < n * 10 ^ e := by positivity
    rw [if_pos hs, uMul_eq (lt_trans hlt (by norm_num)), pure_bind]
    have hl : Nat.log 10 (n * 10 ^ e) < 10 := Nat.log_lt_of_lt_pow (by omega) hlt
    refine ⟨_, _, _, _, rfl, dt_int hp, by omega, le_refl _, h0, ?_⟩
    rw [zpow_zero, mul_one, zpow_natCast, Nat.cast_mul, Nat.cast_pow, Nat.cast_ofNat]
  · rw [if_neg hs]
    by_cases hz : Nat.log 10 n = 0
    · rw [if_pos hz]
      refine ⟨_, _, _, _, rfl, dt_exp h (e := e) ⟨Nat.toDigits 10 e, Nat.toDigits_ne_nil, toDigits_isDigit, Or.inl ⟨rfl, by rw [dval_toDigits]⟩⟩, by omega, by omega, le_refl _, rfl⟩
    · rw [if_neg hz]
      have := sciText_c h ((e + Nat.log 10 n : Nat) : Int)
      refine ⟨_, _, _, _, rfl, this, by omega, by omega, by omega, ?_⟩
      rw [Nat.cast_add, add_sub_cancel_right]

theorem negText_c {n : Nat} {exp : Int} (h : 0 < n) (hn : n < 10 ^ 19) (h0 : exp < 0) (h1 : -4294967200 < exp) :
    ∃ s v y l, negText n exp (Nat.log 10 n) = pure s ∧ DT s v y l ∧ l ≤ 21 ∧ exp - 20 ≤ y ∧ y ≤ 0 ∧ (1 / 10 ^ 8 ≤ (n : ℚ) * 10 ^ exp → -20 ≤ y) ∧ ((v : ℚ) * 10 ^ y = n * 10 ^ exp ∨
      (n : ℚ) * 10 ^ exp < 1 / 100 ∧ 1 / 10 ^ 8 ≤ (n : ℚ) * 10 ^ exp ∧ (v : ℚ) * 10 ^ y ≤ n * 10 ^ exp ∧ n * 10 ^ exp < (v : ℚ) * 10 ^ y + 1 / 10 ^ 20) := by
  obtain ⟨d, hd⟩ := Int.eq_ofNat_of_zero_le (show 0 ≤ -exp by omega)
  have hexp : exp = -(d : Int) := by omega
  subst hexp
  have hlog : Nat.log 10 n < 19 := Nat.log_lt_of_lt_pow (by omega) hn
  unfold negText
  simp only []
  have hm : -(-(d : Int)) % 4294967296 = d := by omega
  rw [hm]
  by_cases hc : (Nat.log 10 n : Int) ≥ d
  · have hidx : ((Nat.log 10 n : Int) + -(d : Int) + 1).toNat = Nat.log 10 n + 1 - d := by omega
    rw [if_pos hc, if_pos (by rw [length_toDigits h]; omega), hidx]
    have := dt_point (k := Nat.log 10 n + 1 - d) h (by omega) (by omega) (ep := []) (Or.inl ⟨rfl, rfl⟩)
    rw [List.append_nil] at this
    refine ⟨_, _, _, _, rfl, this, by omega, by omega, by omega, fun _ => by omega, Or.inl ?_⟩
    rw [show (0 : Int) - (Nat.log 10 n + 1 - (Nat.log 10 n + 1 - d) : Nat) = -(d : Int) by omega]
  · rw [if_neg hc]
    obtain ⟨z, hz⟩ : ∃ z, z = (-(-(d : Int)) - (Nat.log 10 n : Int) - 1).toNat := ⟨_, rfl⟩
    rw [← hz]
    by_cases h8 : z < 8
    · rw [if_pos h8]
      obtain ⟨c, t, g1, g2, g3, g4⟩ := toDigits_cons h
      have hL := length_toDigits h
      rw [g1, List.length_cons] at hL
      obtain ⟨t', ht'⟩ : ∃ t', t' = t.take (19 - z) := ⟨_, rfl⟩
      have hres : (if ('0' :: '.' :: (List.replicate z '0' ++ Nat.toDigits 10 n)).length > 22 then
          ('0' :: '.' :: (List.replicate z '0' ++ Nat.toDigits 10 n)).take 22 else '0' :: '.' :: (List.replicate z '0' ++ Nat.toDigits 10 n)) =
          ('0' :: '.' :: List.replicate z '0') ++ c :: t' := by
        have e1 : ('0' :: '.' :: (List.replicate z '0' ++ Nat.toDigits 10 n)).take 22 = ('0' :: '.' :: List.replicate z '0') ++ c :: t' := by
          rw [List.take_succ_cons, List.take_succ_cons, List.take_append, List.length_replicate, List.take_of_length_le (by rw [List.length_replicate]; omega), g1,
            show 20 - z = (19 - z) + 1 by omega, List.take_succ_cons, ht']
          rfl
        split_ifs with hl
        · exact e1
        · rw [← e1, List.take_of_length_le (by omega)]
      rw [hres]
      obtain ⟨u, k, e1, e2⟩ := trimEnd_keep g3 ('0' :: '.' :: List.replicate z '0') t'
      rw [e1]
      have hlen : t'.length = min (19 - z) t.length := by rw [ht', List.length_take]
      have hlen2 : t'.length = u.length + k := by rw [e2, List.length_append, List.length_replicate]
      have hu : ∀ x ∈ u, isDigit x = true := fun x hx => g4 x (List.mem_of_mem_take (by rw [← ht', e2]; exact List.mem_append_left _ hx))
      have hd1 : dval (c :: t') 0 = dval (c :: u) 0 * 10 ^ k := by
        rw [e2, ← List.cons_append, dval_zeros]
      have hd2 : dval ('0' :: (List.replicate z '0' ++ c :: u)) 0 = dval (c :: u) 0 := by
        have := dval_replicate (z + 1) (c :: u)
        rw [List.replicate_succ] at this
        exact this
      have hdt : DT (('0' :: '.' :: List.replicate z '0') ++ c :: u) (dval (c :: u) 0) (-((z + 1 + u.length : Nat) : Int)) (z + 2 + u.length) := by
        refine ⟨['0'], '.' :: (List.replicate z '0' ++ c :: u), [], 0, by simp, Or.inl rfl, Or.inr ⟨_, rfl, ?_, hd2.symm, ?_, ?_⟩, Or.inl ⟨rfl, rfl⟩⟩
        · intro x hx
          rcases List.mem_append.1 hx with hx | hx
          · rw [List.eq_of_mem_replicate hx]; decide
          · rcases List.mem_cons.1 hx with rfl | hx
            · exact g2
            · exact hu x hx
        · rw [List.length_append, List.length_replicate, List.length_cons]; omega
        · simp only [List.length_append, List.length_replicate, List.length_cons, List.length_nil]; omega
      have htk : (Nat.toDigits 10 n).take (20 - z) = c :: t' := by
        rw [g1, show 20 - z = (19 - z) + 1 by omega, List.take_succ_cons, ht']
      obtain ⟨b1, b2⟩ := dval_take (Nat.toDigits 10 n) toDigits_isDigit (20 - z)
      rw [htk, dval_toDigits, g1, List.length_cons, hL, hd1] at b1 b2
      -- the value
      have hv : ((dval (c :: u) 0 : Nat) : ℚ) * 10 ^ (-((z + 1 + u.length : Nat) : Int)) = ((dval (c :: u) 0 * 10 ^ k * 10 ^ (Nat.log 10 n + 1 - (20 - z)) : Nat) : ℚ) * 10 ^ (-(d : Int)) := by
        have hdd : (d : Int) = (z + 1 + u.length : Nat) + (k + (Nat.log 10 n + 1 - (20 - z)) : Nat) := by omega
        rw [hdd, neg_add, zpow_add₀ (by norm_num), zpow_neg _ (((k + (Nat.log 10 n + 1 - (20 - z)) : Nat)) : Int), zpow_natCast, pow_add]
        push_cast
        field_simp
      refine ⟨_, _, _, _, rfl, hdt, by omega, by omega, by omega, fun _ => by omega, ?_⟩
      have hpos : (0 : ℚ) < 10 ^ (-(d : Int)) := by positivity
      rw [hv]
      by_cases hj : Nat.log 10 n + 1 ≤ 20 - z
      · left
        rw [Nat.sub_eq_zero_of_le hj, Nat.pow_zero, Nat.mul_one] at b1 b2 ⊢
        rw [show dval (c :: u) 0 * 10 ^ k = n by omega]
      · right
        have l1 : 10 ^ Nat.log 10 n ≤ n := Nat.pow_log_le_self 10 (by omega)
        have l2 : n < 10 ^ (Nat.log 10 n + 1) := Nat.lt_pow_succ_log_self (by decide) n
        have l1' : (10 : ℚ) ^ (Nat.log 10 n : Int) ≤ n := by rw [zpow_natCast]; exact_mod_cast l1
        have l2' : (n : ℚ) < (10 : ℚ) ^ ((Nat.log 10 n + 1 : Nat) : Int) := by rw [zpow_natCast]; exact_mod_cast l2
        refine ⟨?_, ?_, ?_, ?_⟩
        · have := mul_lt_mul_of_pos_right l2' hpos
          rw [← zpow_add₀ (by norm_num)] at this
          refine lt_of_lt_of_le this (le_trans (b := (10 : ℚ) ^ (-2 : Int)) (zpow_le_zpow_right₀ (by norm_num) (by omega)) (by norm_num))
        · have := mul_le_mul_of_nonneg_right l1' hpos.le
          rw [← zpow_add₀ (by norm_num)] at this
          refine le_trans (le_trans (by norm_num : (1 / 10 ^ 8 : ℚ) ≤ 10 ^ (-8 : Int)) ?_) this
          exact zpow_le_zpow_right₀ (by norm_num) (by omega)
        · exact mul_le_mul_of_nonneg_right (by exact_mod_cast b1) hpos.le
        · have b2' : (n : ℚ) < ((dval (c :: u) 0 * 10 ^ k * 10 ^ (Nat.log 10 n + 1 - (20 - z)) : Nat) : ℚ) + 10 ^ (Nat.log 10 n + 1 - (20 - z)) := by
            rw [Nat.add_mul, Nat.one_mul] at b2
            exact_mod_cast b2
          have := mul_lt_mul_of_pos_right b2' hpos
          rw [add_mul] at this
          refine lt_of_lt_of_eq this ?_
          congr 1
          rw [← zpow_natCast, ← zpow_add₀ (by norm_num), show ((Nat.log 10 n + 1 - (20 - z) : Nat) : Int) + -(d : Int) = -20 by omega]
          norm_num
    · rw [if_neg h8]
      have hbig : ¬1 / 10 ^ 8 ≤ (n : ℚ) * 10 ^ (-(d : Int)) := by
        have l2 : n < 10 ^ (Nat.log 10 n + 1) := Nat.lt_pow_succ_log_self (by decide) n
        have l2' : (n : ℚ) < (10 : ℚ) ^ ((Nat.log 10 n + 1 : Nat) : Int) := by rw [zpow_natCast]; exact_mod_cast l2
        have := mul_lt_mul_of_pos_right l2' (show (0 : ℚ) < 10 ^ (-(d : Int)) by positivity)
        rw [← zpow_add₀ (by norm_num)] at this
        exact not_le.2 (lt_of_lt_of_le this (le_trans (b := (10 : ℚ) ^ (-8 : Int)) (zpow_le_zpow_right₀ (by norm_num) (by omega)) (by norm_num)))
      by_cases hzz : Nat.log 10 n = 0
      · rw [if_pos hzz]
        exact ⟨_, _, _, _, rfl, dt_exp h (intText_c _), by omega, by omega, by omega, fun h => absurd h hbig, Or.inl rfl⟩
      · rw [if_neg hzz]
        have := sciText_c h (-(d : Int) + Nat.log 10 n)
        rw [add_sub_cancel_right] at this
        exact ⟨_, _, _, _, rfl, this, by omega, by omega, by omega, fun h => absurd h hbig, Or.inl rfl⟩

theorem digitText_c {n : Nat} {exp : Int} (h : 0 < n) (hn : n < 10 ^ 19) (h0 : exp < 4294967200) (h1 : -4294967200 < exp) :
    ∃ s v y l, digitText n exp = pure s ∧ DT s v y l ∧ l ≤ 21 ∧ |y| ≤ |exp| + 20 ∧ (1 / 10 ^ 8 ≤ (n : ℚ) * 10 ^ exp → -20 ≤ y) ∧ ((v : ℚ) * 10 ^ y = n * 10 ^ exp ∨
      (n : ℚ) * 10 ^ exp < 1 / 100 ∧ 1 / 10 ^ 8 ≤ (n : ℚ) * 10 ^ exp ∧ (v : ℚ) * 10 ^ y ≤ n * 10 ^ exp ∧ n * 10 ^ exp < (v : ℚ) * 10 ^ y + 1 / 10 ^ 20) := by
  rw [digitText, log10_c n h (lt_trans hn (by norm_num)), pure_bind]
  by_cases hc : exp ≥ 0
  · rw [if_pos hc]
    obtain ⟨s, v, y, l, a1, a2, a3, a4, a5, a6⟩ := posText_c h hn hc h0
    refine ⟨s, v, y, l, a1, a2, a3, ?_, fun _ => by omega, Or.inl a6⟩
    rw [abs_of_nonneg a4, abs_of_nonneg hc]
    omega
  · rw [if_neg hc]
    obtain ⟨s, v, y, l, a1, a2, a3, a4, a5, a6⟩ := negText_c h hn (by omega) h1
    refine ⟨s, v, y, l, a1, a2, a3, ?_, a6⟩
    rw [abs_of_nonpos a5, abs_of_neg (by omega)]
    omega

/-! ### the scale -/

/-- powers of ten as logarithms -/
theorem le_of_log {v c : ℚ} {l : Int} (hv : 0 < v) (hc : 0 < c) (h : (l : ℝ) * Real.log 10 + Real.log c ≤ Real.log v) : c * 10 ^ l ≤ v := by
  have h1 : (0 : ℝ) < (c : ℝ) := by exact_mod_cast hc
  have h2 : (0 : ℝ) < (v : ℝ) := by exact_mod_cast hv
  have h3 : Real.log ((c * 10 ^ l : ℚ) : ℝ) ≤ Real.log v := by
    push_cast
    rw [Real.log_mul h1.ne' (by positivity), Real.log_zpow]
    linarith
  have h4 : (0 : ℝ) < ((c * 10 ^ l : ℚ) : ℝ) := by push_cast; positivity
  exact_mod_cast (Real.log_le_log_iff h4 h2).1 h3

theorem ge_of_log {v c : ℚ} {l : Int} (hv : 0 < v) (hc : 0 < c) (h : Real.log v ≤ (l : ℝ) * Real.log 10 + Real.log c) : v ≤ c * 10 ^ l := by
  have h1 : (0 : ℝ) < (c : ℝ) := by exact_mod_cast hc
  have h2 : (0 : ℝ) < (v : ℝ) := by exact_mod_cast hv
  have h3 : Real.log v ≤ Real.log ((c * 10 ^ l : ℚ) : ℝ) := by
    push_cast
    rw [Real.log_mul h1.ne' (by positivity), Real.log_zpow]
    linarith
  have h4 : (0 : ℝ) < ((c * 10 ^ l : ℚ) : ℝ) := by push_cast; positivity
  exact_mod_cast (Real.log_le_log_iff h2 h4).1 h3

theorem near_log {v : ℚ} {n : Int} (hv : 0 < v) (h : Near v n) : ((n : ℝ) - 131072) * Real.log 2 ≤ 16777216 * Real.log v ∧
    16777216 * Real.log v ≤ ((n : ℝ) + 131072) * Real.log 2 := by
  obtain ⟨h1, h2⟩ := h
  have hv' : (0 : ℝ) < (v : ℝ) := by exact_mod_cast hv
  have a1 : ((2 : ℝ) ^ (n / 65536 - 1 : ℤ)) ≤ (v : ℝ) ^ 256 := by
    have := (Rat.cast_le (K := ℝ)).2 h1
    push_cast at this
    exact this
  have a2 : (v : ℝ) ^ 256 ≤ ((2 : ℝ) ^ (n / 65536 + 2 : ℤ)) := by
    have := (Rat.cast_le (K := ℝ)).2 h2
    push_cast at this
    exact this
  have b1 := Real.log_le_log (by positivity) a1
  have b2 := Real.log_le_log (by positivity) a2
  rw [Real.log_zpow, Real.log_pow] at b1 b2
  have hl2 : 0 < Real.log 2 := Real.log_pos (by norm_num)
  obtain ⟨t, ht⟩ : ∃ t : Int, t = n / 65536 := ⟨_, rfl⟩
  rw [← ht] at b1 b2
  have c1 : ((n : ℤ) : ℝ) < 65536 * (t : ℝ) + 65536 := by exact_mod_cast (by omega : n < 65536 * t + 65536)
  have c2 : 65536 * (t : ℝ) ≤ ((n : ℤ) : ℝ) := by exact_mod_cast (by omega : 65536 * t ≤ n)
  push_cast at b1 b2
  have d1 : ((n : ℝ) - 131072) * Real.log 2 ≤ (65536 * ((t : ℝ) - 1)) * Real.log 2 := mul_le_mul_of_nonneg_right (by linarith) hl2.le
  have d2 : (65536 * ((t : ℝ) + 2)) * Real.log 2 ≤ ((n : ℝ) + 131072) * Real.log 2 := mul_le_mul_of_nonneg_right (by linarith) hl2.le
  constructor <;> linarith

/-- the estimate of the number of digits -/
theorem approx_c {v : ℚ} {L l : Int} (hv : 0 < v) (h : Near v L) (hL : L.natAbs ≤ 288230379523932160) (hl : l = ((L * 21306).tdiv 70777).tdiv 16777216) :
    1 / 100 * 10 ^ l ≤ v ∧ v ≤ 100 * 10 ^ l ∧ (0 < l → 99 / 100 * 10 ^ l ≤ v) := by
  obtain ⟨n1, n2⟩ := near_log hv h
  obtain ⟨l1, l2⟩ := Ratio.log_two_ten
  have ha : 0 < Real.log 2 := Real.log_pos (by norm_num)
  have hb : 0 < Real.log 10 := Real.log_pos (by norm_num)
  have h100 : Real.log ((100 : ℚ) : ℝ) = 2 * Real.log 10 := by
    rw [show ((100 : ℚ) : ℝ) = 10 ^ 2 by norm_num, Real.log_pow]
    norm_num
  have h100' : Real.log ((1 / 100 : ℚ) : ℝ) = -(2 * Real.log 10) := by
    rw [show ((1 / 100 : ℚ) : ℝ) = (((100 : ℚ) : ℝ))⁻¹ by norm_num, Real.log_inv, h100]
  have h99 : 128 * Real.log ((99 / 100 : ℚ) : ℝ) ≤ -Real.log 2 := by
    have e1 : (128 : ℝ) * Real.log ((99 / 100 : ℚ) : ℝ) = Real.log (((99 / 100 : ℚ) : ℝ) ^ 128) := by rw [Real.log_pow]; norm_num
    rw [e1, ← Real.log_inv]
    exact Real.log_le_log (by positivity) (by norm_num)
  rcases le_or_gt 0 L with h0 | h0
  · have q1 : l * (70777 * 16777216) ≤ 21306 * L ∧ 21306 * L < (l + 1) * (70777 * 16777216) := by
      rw [Int.tdiv_eq_ediv_of_nonneg (a := L * 21306) (by omega), Int.tdiv_eq_ediv_of_nonneg (by omega)] at hl
      omega
    have q1' : (l : ℝ) * (70777 * 16777216) ≤ 21306 * (L : ℝ) := by exact_mod_cast q1.1
    have q2' : 21306 * (L : ℝ) ≤ ((l : ℝ) + 1) * (70777 * 16777216) := by exact_mod_cast q1.2.le
    have h0' : (0 : ℝ) ≤ (L : ℝ) := by exact_mod_cast h0
    have hL' : (L : ℝ) ≤ 288230379523932160 := by exact_mod_cast (by omega : L ≤ 288230379523932160)
    have r1 : (l : ℝ) * (70777 * 16777216) * Real.log 10 ≤ 21306 * (L : ℝ) * Real.log 10 := mul_le_mul_of_nonneg_right q1' hb.le
    have r2 : (L : ℝ) * (21306 * Real.log 10) ≤ L * (70777 * Real.log 2) := mul_le_mul_of_nonneg_left l1.le h0'
    have r3 : 21306 * (L : ℝ) * Real.log 10 ≤ ((l : ℝ) + 1) * (70777 * 16777216) * Real.log 10 := mul_le_mul_of_nonneg_right q2' hb.le
    have r4 : (L : ℝ) * (254370 * Real.log 2) ≤ L * (76573 * Real.log 10) := mul_le_mul_of_nonneg_left l2.le h0'
    have r5 : (L : ℝ) * Real.log 10 ≤ 288230379523932160 * Real.log 10 := mul_le_mul_of_nonneg_right hL' hb.le
    have low : 99 / 100 * 10 ^ l ≤ v := by
      apply le_of_log hv (by norm_num)
      linarith
    refine ⟨le_trans (mul_le_mul_of_nonneg_right (by norm_num) (by positivity)) low, ?_, fun _ => low⟩
    apply ge_of_log hv (by norm_num)
    rw [h100]
    linarith
  · have q1 : (l - 1) * (70777 * 16777216) ≤ 21306 * L ∧ 21306 * L ≤ l * (70777 * 16777216) := by
      obtain ⟨L', rfl⟩ : ∃ L', L = -L' := ⟨-L, by omega⟩
      rw [Int.neg_mul, Int.neg_tdiv, Int.neg_tdiv, Int.tdiv_eq_ediv_of_nonneg (a := L' * 21306) (by omega), Int.tdiv_eq_ediv_of_nonneg (by omega)] at hl
      omega
    have q1' : ((l : ℝ) - 1) * (70777 * 16777216) ≤ 21306 * (L : ℝ) := by exact_mod_cast q1.1
    have q2' : 21306 * (L : ℝ) ≤ (l : ℝ) * (70777 * 16777216) := by exact_mod_cast q1.2
    have h0' : (L : ℝ) ≤ 0 := by exact_mod_cast h0.le
    have hL' : -288230379523932160 ≤ (L : ℝ) := by exact_mod_cast (by omega : -288230379523932160 ≤ L)
    have r1 : ((l : ℝ) - 1) * (70777 * 16777216) * Real.log 10 ≤ 21306 * (L : ℝ) * Real.log 10 := mul_le_mul_of_nonneg_right q1' hb.le
    have r2 : (L : ℝ) * (70777 * Real.log 2) ≤ L * (21306 * Real.log 10) := mul_le_mul_of_nonpos_left l1.le h0'
    have r3 : 21306 * (L : ℝ) * Real.log 10 ≤ (l : ℝ) * (70777 * 16777216) * Real.log 10 := mul_le_mul_of_nonneg_right q2' hb.le
    have r4 : (L : ℝ) * (76573 * Real.log 10) ≤ L * (254370 * Real.log 2) := mul_le_mul_of_nonpos_left l2.le h0'
    have r5 : -288230379523932160 * Real.log 10 ≤ (L : ℝ) * Real.log 10 := mul_le_mul_of_nonneg_right hL' hb.le
    refine ⟨?_, ?_, fun h => ?_⟩
    · apply le_of_log hv (by norm_num)
      rw [h100']
      linarith
    · apply ge_of_log hv (by norm_num)
      rw [h100]
      linarith
    · exfalso
      omega

/-! ### the digits -/

theorem downLoop_c : ∀ (N n : Nat) (E : Int), n < 10 ^ (21 + N) → ∃ j, j ≤ N ∧ downLoop n E = (n / 10 ^ j, E + j) ∧ n / 10 ^ j < 10 ^ 21 ∧
    (j = 0 ∨ 10 ^ 20 ≤ n / 10 ^ j)
  | 0, n, E, h => by
    refine ⟨0, le_rfl, ?_, by simpa using h, Or.inl rfl⟩
    rw [downLoop, if_neg (by norm_num at h ⊢; omega)]
    simp
  | N + 1, n, E, h => by
    by_cases hn : n ≥ 1000000000000000000000
    · obtain ⟨j, h1, h2, h3, h4⟩ := downLoop_c N (n / 10) (E + 1) (by
        rw [Nat.div_lt_iff_lt_mul (by norm_num), ← pow_succ]
        exact h)
      have e1 : n / 10 / 10 ^ j = n / 10 ^ (j + 1) := by rw [Nat.div_div_eq_div_mul, pow_succ']
      rw [e1] at h2 h3 h4
      refine ⟨j + 1, by omega, ?_, h3, Or.inr ?_⟩
      · rw [downLoop, if_pos hn, h2]
        push_cast
        rw [show E + 1 + (j : Int) = E + (j + 1) by ring]
      · rcases h4 with h4 | h4
        · subst h4
          norm_num
          omega
        · exact h4
    · refine ⟨0, by omega, ?_, by norm_num; omega, Or.inl rfl⟩
      rw [downLoop, if_neg hn]
      simp

theorem upLoop_c : ∀ (N n : Nat) (E : Int), n < 10 ^ 21 → 10 ^ 20 ≤ n * 10 ^ N → ∃ i, i ≤ N ∧ upLoop n E = pure (n * 10 ^ i, E - i) ∧
    10 ^ 20 ≤ n * 10 ^ i ∧ n * 10 ^ i < 10 ^ 21
  | 0, n, E, h, h' => by
    refine ⟨0, le_rfl, ?_, by simpa using h', by simpa using h⟩
    rw [upLoop, if_neg (by norm_num at h' ⊢; omega)]
    simp
  | N + 1, n, E, h, h' => by
    by_cases hn : n < 100000000000000000000
    · obtain ⟨i, h1, h2, h3, h4⟩ := upLoop_c N (n * 10) (E - 1) (by norm_num; omega) (by rw [Nat.mul_assoc, ← pow_succ']; exact h')
      have e1 : n * 10 * 10 ^ i = n * 10 ^ (i + 1) := by rw [Nat.mul_assoc, ← pow_succ']
      rw [e1] at h2 h3 h4
      refine ⟨i + 1, by omega, ?_, h3, h4⟩
      rw [upLoop, if_pos hn, uMul_eq (by omega), pure_bind, h2]
      push_cast
      rw [show E - 1 - (i : Int) = E - (i + 1) by ring]
    · refine ⟨0, by omega, ?_, by norm_num; omega, by simpa using h⟩
      rw [upLoop, if_neg hn]
      simp

theorem stripLoop_c : ∀ (N n : Nat) (E : Int), 0 < n → n < 10 ^ N → ∃ k t, t ≤ N ∧ stripLoop n E = pure (k, E + (t : Int)) ∧ n = k * 10 ^ t ∧
    k % 10 ≠ 0
  | 0, n, E, h0, h => by simp at h; omega
  | N + 1, n, E, h0, h => by
    by_cases hn : n % 10 = 0
    · obtain ⟨k, t, h1, h2, h3, h4⟩ := stripLoop_c N (n / 10) (E + 1) (by omega) (by
        rw [Nat.div_lt_iff_lt_mul (by norm_num), ← pow_succ]
        exact h)
      refine ⟨k, t + 1, by omega, ?_, ?_, h4⟩
      · rw [stripLoop, if_pos hn, h2]
        push_cast
        rw [show E + 1 + (t : Int) = E + (t + 1) by ring]
      · rw [pow_succ, ← Nat.mul_assoc, ← h3]
        omega
    · refine ⟨n, 0, by omega, ?_, by simp, hn⟩
      rw [stripLoop, if_neg hn]
      simp

theorem digits_c {n : Nat} {E : Int} (h1 : 9 * 10 ^ 17 ≤ n) (h2 : n < 10 ^ 25) : ∃ (q : Nat × Int) (k : Nat) (F : Int),
    upLoop (downLoop n E).1 (downLoop n E).2 = pure q ∧ stripLoop (roundDigits q.1 q.2).1 (roundDigits q.1 q.2).2 = pure (k, F) ∧
    0 < k ∧ k < 10 ^ 19 ∧ k % 10 ≠ 0 ∧ |F - E| ≤ 30 ∧ |(k : ℚ) * 10 ^ F - n * 10 ^ E| ≤ 6 / 10 ^ 19 * (n * 10 ^ E) := by
  obtain ⟨j, j1, j2, j3, j4⟩ := downLoop_c 4 n E (by norm_num at h2 ⊢; omega)
  obtain ⟨n1, hn1⟩ : ∃ n1, n1 = n / 10 ^ j := ⟨_, rfl⟩
  rw [← hn1] at j2 j3 j4
  have hn1' : 9 * 10 ^ 17 ≤ n1 := by
    rcases j4 with j4 | j4
    · subst j4
      simpa [hn1] using h1
    · norm_num at j4 ⊢
      omega
  obtain ⟨i, i1, i2, i3, i4⟩ := upLoop_c 3 n1 (E + j) j3 (by norm_num at hn1' ⊢; omega)
  obtain ⟨n2, hn2⟩ : ∃ n2, n2 = n1 * 10 ^ i := ⟨_, rfl⟩
  rw [← hn2] at i2 i3 i4
  obtain ⟨r, hr⟩ : ∃ r, r = if n2 % 100 ≥ 50 then n2 / 100 + 1 else n2 / 100 := ⟨_, rfl⟩
  have r1 : 100 * r ≤ n2 + 50 ∧ n2 ≤ 100 * r + 50 := by
    rw [hr]
    split_ifs <;> omega
  norm_num at i3 i4
  obtain ⟨k, t, t1, t2, t3, t4⟩ := stripLoop_c 20 r (E + j - i + 2) (by omega) (by norm_num; omega)
  refine ⟨(n2, E + j - i), k, E + j - i + 2 + t, ?_, ?_, ?_, ?_, t4, ?_, ?_⟩
  · rw [j2]
    exact i2
  · rw [roundDigits]
    simp only [← hr]
    exact t2
  · exact Nat.pos_of_ne_zero fun hk => by rw [hk, Nat.zero_mul] at t3; omega
  · have : k ≤ k * 10 ^ t := Nat.le_mul_of_pos_right _ (by positivity)
    rw [← t3] at this
    norm_num
    omega
  · rw [abs_le]
    omega
  · have pE : (0 : ℚ) < 10 ^ E := by positivity
    have e1 : (k : ℚ) * 10 ^ (E + j - i + 2 + t) = 100 * r * (10 ^ j / 10 ^ i) * 10 ^ E := by
      rw [show (r : ℚ) = k * 10 ^ t by rw [t3]; push_cast; rfl]
      rw [zpow_add₀ (by norm_num), zpow_add₀ (by norm_num), zpow_sub₀ (by norm_num), zpow_add₀ (by norm_num), zpow_natCast, zpow_natCast, zpow_natCast]
      norm_num
      ring
    rw [e1, ← sub_mul, abs_mul, abs_of_pos pE, ← mul_assoc]
    apply mul_le_mul_of_nonneg_right _ pE.le
    have pi : (0 : ℚ) < 10 ^ i := by positivity
    have pj : (0 : ℚ) < 10 ^ j := by positivity
    have q1 : (100 : ℚ) * r ≤ n2 + 50 := by exact_mod_cast r1.1
    have q2 : (n2 : ℚ) ≤ 100 * r + 50 := by exact_mod_cast r1.2
    have q3 : (n2 : ℚ) / 10 ^ i = n1 := by
      rw [hn2]
      push_cast
      field_simp
    have q4 : (n1 : ℚ) * 10 ^ j ≤ n := by exact_mod_cast hn1 ▸ Nat.div_mul_le_self n (10 ^ j)
    have q5 : (n : ℚ) ≤ (n1 + if j = 0 then 0 else 1) * 10 ^ j := by
      split_ifs with hj
      · subst hj
        simp [hn1]
      · have := Nat.lt_div_mul_add (a := n) (b := 10 ^ j) (by positivity)
        rw [← hn1] at this
        have h3 : (n : ℚ) < n1 * 10 ^ j + 10 ^ j := by exact_mod_cast this
        linarith
    have q6 : ((if j = 0 then 0 else 1 : ℚ)) ≤ 1 / 10 ^ 20 * n1 := by
      split_ifs with hj
      · positivity
      · have : (10 : ℚ) ^ 20 ≤ n1 := by exact_mod_cast j4.resolve_left hj
        linarith
    have q7 : (10 : ℚ) ^ 20 ≤ n2 := by
      have : 10 ^ 20 ≤ n2 := by norm_num; omega
      exact_mod_cast this
    have q8 : (100 : ℚ) * r * (10 ^ j / 10 ^ i) = (100 * r / 10 ^ i) * 10 ^ j := by ring
    have u1 : (100 : ℚ) * r / 10 ^ i ≤ n1 * (1 + 5 / 10 ^ 19) := by
      rw [← q3, div_le_iff₀ pi]
      field_simp
      linarith
    have u2 : n1 * (1 - 5 / 10 ^ 19) ≤ (100 : ℚ) * r / 10 ^ i := by
      rw [← q3, le_div_iff₀ pi]
      field_simp
      linarith
    have w1 := mul_le_mul_of_nonneg_right u1 pj.le
    have w2 := mul_le_mul_of_nonneg_right u2 pj.le
    have w3 := mul_le_mul_of_nonneg_right q6 pj.le
    rw [q8, abs_le]
    rw [add_mul] at q5
    generalize (if j = 0 then 0 else 1 : ℚ) * 10 ^ j = Q at *
    have w4 : (0 : ℚ) ≤ n1 * 10 ^ j := by positivity
    constructor <;> linarith

/-- a number of the right size as an integer -/
theorem to_u128_mid {m e : Nat} (h : Nrm m) (h1 : 1 ≤ mg m e) (h2 : mg m e < 10 ^ 25) : ∃ n : Nat,
    to_u128 (mk' false m e) = pure (some n) ∧ (n : ℚ) ≤ mg m e ∧ mg m e < n + 1 := by
  have e1 : ¬e + 128 ≤ 281474976710656 := fun he => absurd (mg_small h he) (by linarith)
  have e2 : ¬281474976710656 < e := fun he => by
    have u1 : ulp 281474976710656 ≤ ulp e := ulp_mono he.le
    have u2 : ulp 281474976710656 = 1 := by simp [ulp]
    rw [u2] at u1
    have u3 : (2 : ℚ) ^ 127 ≤ m := by exact_mod_cast (by norm_num; exact h.1 : 2 ^ 127 ≤ m)
    have u4 : (2 : ℚ) ^ 127 * 1 ≤ m * ulp e := mul_le_mul u3 u1 (by norm_num) (by positivity)
    rw [← mg_eq] at u4
    have u5 : (10 : ℚ) ^ 25 < 2 ^ 127 * 1 := by norm_num
    linarith
  have hf := floor_mg (m := m) (e := e) (by omega)
  refine ⟨_, by rw [to_u128_c h (nz_exp (by omega)), if_neg e2, if_neg e1], ?_, ?_⟩
  · have := Int.floor_le (mg m e)
    rw [hf] at this
    exact_mod_cast this
  · have := Int.lt_floor_add_one (mg m e)
    rw [hf] at this
    exact_mod_cast this

/-- the exponents for which printing is described -/
def Pe (e : Nat) : Prop := 281474976710656 ≤ e + 17179869184 ∧ e ≤ 281474976710656 + 17179869184

theorem scale_div {v P N T ε : ℚ} (hv : 0 < v) (hP : 0 < P) (e0 : 0 < ε) (hε : ε ≤ 1 / 10) (p1 : T * (1 - ε) ≤ P) (p2 : P ≤ T) (n1 : v / P ≤ N) (n2 : N ≤ v / P * (1 + ε)) :
    v ≤ N * T ∧ N * T ≤ v * (1 + 3 * ε) := by
  have hN : 0 < N := lt_of_lt_of_le (div_pos hv hP) n1
  rw [div_le_iff₀ hP] at n1
  have n2' : N * P ≤ v * (1 + ε) := by
    have := mul_le_mul_of_nonneg_right n2 hP.le
    rwa [div_mul_eq_mul_div, div_mul_cancel₀ _ hP.ne'] at this
  refine ⟨le_trans n1 (mul_le_mul_of_nonneg_left p2 hN.le), ?_⟩
  have h1 := mul_le_mul_of_nonneg_left p1 hN.le
  have h2 : N * T * (1 - ε) ≤ v * (1 + ε) := by linarith
  have h3 : v * (1 + ε) ≤ v * (1 + 3 * ε) * (1 - ε) := by
    rw [mul_assoc]
    exact mul_le_mul_of_nonneg_left (by nlinarith) hv.le
  exact le_of_mul_le_mul_right (h2.trans h3) (by linarith)

theorem scale_mul {v P N T ε : ℚ} (hv : 0 < v) (e0 : 0 < ε) (hε : ε ≤ 1 / 10) (hT : 0 < T) (p1 : T * (1 - ε) ≤ P) (p2 : P ≤ T) (n1 : v * P * (1 - ε) ≤ N) (n2 : N ≤ v * P) :
    N ≤ v * T ∧ v * T * (1 - 2 * ε) ≤ N := by
  refine ⟨n2.trans (mul_le_mul_of_nonneg_left p2 hv.le), le_trans ?_ n1⟩
  have h1 := mul_le_mul_of_nonneg_left p1 hv.le
  have h2 := mul_le_mul_of_nonneg_right h1 (by linarith : 0 ≤ 1 - ε)
  refine le_trans ?_ h2
  have h3 : 0 < v * T := mul_pos hv hT
  nlinarith [mul_pos h3 (mul_pos e0 e0)]

theorem scale_c {s : Bool} {m e : Nat} (h : Nrm m) (he : Pe e) : ∃ (m' e' : Nat) (E : Int), approxScale (mk' s m e) = pure (mk' false m' e', E) ∧
    Nrm m' ∧ 9 * 10 ^ 17 + 1 ≤ mg m' e' ∧ mg m' e' < 2 * 10 ^ 24 ∧ |E| ≤ 6000000000 ∧
    (281474976710656 ≤ e + 8589934592 ∧ e ≤ 281474976710656 + 8589934592 → |E| ≤ 3000000000) ∧ |mg m' e' * 10 ^ E - mg m e| ≤ 1 / 10 ^ 22 * mg m e := by
  obtain ⟨x1, x2⟩ := he
  obtain ⟨L, l1, l2, l3, l4⟩ := fast_log2_c (s := s) (e := e) h ⟨by omega, by omega⟩
  have hv := mg_pos (e := e) h
  obtain ⟨l, hl⟩ : ∃ l, l = ((L * 21306).tdiv 70777).tdiv 16777216 := ⟨_, rfl⟩
  have hlog : approxLog10 (mk' s m e) = pure l := by rw [approxLog10, l1, pure_bind, ← hl]
  obtain ⟨a1, a2, a3⟩ := approx_c hv l4 (by omega) hl
  have hlb : l.natAbs ≤ 5500000000 := by
    rcases le_or_gt 0 L with h0 | h0
    · rw [Int.tdiv_eq_ediv_of_nonneg (a := L * 21306) (by omega), Int.tdiv_eq_ediv_of_nonneg (by omega)] at hl
      omega
    · obtain ⟨L', rfl⟩ : ∃ L', L = -L' := ⟨-L, by omega⟩
      rw [Int.neg_mul, Int.neg_tdiv, Int.neg_tdiv, Int.tdiv_eq_ediv_of_nonneg (a := L' * 21306) (by omega), Int.tdiv_eq_ediv_of_nonneg (by omega)] at hl
      omega
  have hlb2 : 281474976710656 ≤ e + 8589934592 ∧ e ≤ 281474976710656 + 8589934592 → l.natAbs ≤ 2900000000 := fun hh => by
    rcases le_or_gt 0 L with h0 | h0
    · rw [Int.tdiv_eq_ediv_of_nonneg (a := L * 21306) (by omega), Int.tdiv_eq_ediv_of_nonneg (by omega)] at hl
      omega
    · obtain ⟨L', rfl⟩ : ∃ L', L = -L' := ⟨-L, by omega⟩
      rw [Int.neg_mul, Int.neg_tdiv, Int.neg_tdiv, Int.tdiv_eq_ediv_of_nonneg (a := L' * 21306) (by omega), Int.tdiv_eq_ediv_of_nonneg (by omega)] at hl
      omega
  have hε : ∀ n : Nat, n ≤ 6000000000 → (1 : ℚ) - 1 / 10 ^ 27 ≤ 1 - n / 2 ^ 124 := fun n hn => by
    have h1 : (n : ℚ) ≤ 6000000000 := by exact_mod_cast hn
    have h2 : (n : ℚ) / 2 ^ 124 ≤ 6000000000 / 2 ^ 124 := div_le_div_of_nonneg_right h1 (by positivity)
    have h3 : (6000000000 : ℚ) / 2 ^ 124 ≤ 1 / 10 ^ 27 := by norm_num
    linarith
  rw [approxScale, hlog, pure_bind, abs_mk h]
  by_cases c1 : l > 22
  · obtain ⟨n, rfl⟩ : ∃ n : Nat, l = n + 20 := ⟨(l - 20).toNat, by omega⟩
    obtain ⟨mp, ep, p1, p2, p3, p4, p5, p6⟩ := pow10_worker_c (n := n) (by omega)
    obtain ⟨m', e', d1, d2, d3, d4, d5⟩ := div_err (a := false) (b := false) (m₁ := m) (e₁ := e) (m₂ := mp) (e₂ := ep) h p2
      ⟨by omega, by omega⟩ ⟨by omega, by omega⟩
    have hT : (0 : ℚ) < 10 ^ n := by positivity
    obtain ⟨q1, q2⟩ := scale_div (T := 10 ^ n) (ε := 1 / 10 ^ 27) hv (mg_pos p2) (by positivity) (by norm_num)
      (le_trans (mul_le_mul_of_nonneg_left (hε n (by omega)) hT.le) p5) p6 d4
      (d5.trans (mul_le_mul_of_nonneg_left (by norm_num) (div_pos hv (mg_pos p2)).le))
    refine ⟨m', e', n, ?_, d1, ?_, ?_, by rw [abs_le]; omega, fun hh => by rw [abs_le]; have := hlb2 hh; omega, ?_⟩
    · rw [if_pos c1, add_sub_cancel_right, pow10_pos, p1, pure_bind, d3, pure_bind]
      rfl
    all_goals
      have a3' := a3 (by omega)
      rw [zpow_add₀ (by norm_num), zpow_natCast] at a2 a3'
      generalize mg m' e' = N at *
      generalize mg m e = v at *
    · refine le_of_mul_le_mul_right (a := (10 : ℚ) ^ n) ?_ hT
      linarith
    · refine lt_of_mul_lt_mul_right (a := (10 : ℚ) ^ n) ?_ hT.le
      linarith
    · rw [zpow_natCast, abs_le]
      norm_num at q2 ⊢
      constructor <;> linarith
  · by_cases c2 : l < 18
    · obtain ⟨n, rfl⟩ : ∃ n : Nat, l = 20 - n := ⟨(20 - l).toNat, by omega⟩
      obtain ⟨mp, ep, p1, p2, p3, p4, p5, p6⟩ := pow10_worker_c (n := n) (by omega)
      obtain ⟨m', e', d1, -, d2, -, -, d3, d4, d5⟩ := mul_c (a := false) (b := false) (m₁ := m) (e₁ := e) (m₂ := mp) (e₂ := ep) h p2
        (nz_exp (by omega)) (nz_exp (by omega)) (by omega) (by omega)
      have hT : (0 : ℚ) < 10 ^ n := by positivity
      obtain ⟨q1, q2⟩ := scale_mul (T := 10 ^ n) (ε := 1 / 10 ^ 27) hv (by positivity) (by norm_num) hT
        (le_trans (mul_le_mul_of_nonneg_left (hε n (by omega)) hT.le) p5) p6
        (le_trans (mul_le_mul_of_nonneg_left (by norm_num) (mul_pos hv (mg_pos p2)).le) d5) d4
      have a1' := mul_le_mul_of_nonneg_right a1 hT.le
      have a2' := mul_le_mul_of_nonneg_right a2 hT.le
      have e1 : (10 : ℚ) ^ (20 - (n : Int)) * 10 ^ n = 10 ^ 20 := by
        rw [zpow_sub₀ (by norm_num), zpow_natCast, div_mul_cancel₀ _ hT.ne']
        norm_num
      rw [mul_assoc, e1] at a1' a2'
      refine ⟨m', e', -n, ?_, d1, ?_, ?_, by rw [abs_le]; omega, fun hh => by rw [abs_le]; have := hlb2 hh; omega, ?_⟩
      · rw [if_neg c1, if_pos c2, show (20 : Int) - (20 - n) = n by ring, pow10_pos, p1, pure_bind, d3, pure_bind,
          show (20 : Int) - n - 20 = -n by ring]
        rfl
      · generalize mg m' e' = N at *
        generalize mg m e * 10 ^ n = v at *
        norm_num at a1' q2 ⊢
        linarith
      · generalize mg m' e' = N at *
        generalize mg m e * 10 ^ n = v at *
        norm_num at a2' q1 ⊢
        linarith
      · rw [zpow_neg, zpow_natCast, ← div_eq_mul_inv]
        have f1 : mg m' e' / 10 ^ n - mg m e = (mg m' e' - mg m e * 10 ^ n) / 10 ^ n := by field_simp
        rw [f1, abs_div, abs_of_pos hT, div_le_iff₀ hT, mul_assoc, abs_le]
        generalize mg m' e' = N at *
        generalize mg m e * 10 ^ n = v at *
        norm_num at a1' q2 ⊢
        constructor <;> linarith
    · refine ⟨m, e, 0, by rw [if_neg c1, if_neg c2], h, ?_, ?_, by norm_num, fun _ => by norm_num, ?_⟩
      · have a3' := a3 (by omega)
        have b1 : (10 : ℚ) ^ (18 : Int) ≤ 10 ^ l := zpow_le_zpow_right₀ (by norm_num) (by omega)
        norm_num at b1 a3' ⊢
        linarith
      · have b1 : (10 : ℚ) ^ l ≤ 10 ^ (22 : Int) := zpow_le_zpow_right₀ (by norm_num) (by omega)
        norm_num at b1 a2 ⊢
        linarith
      · rw [zpow_zero, mul_one, sub_self, _root_.abs_zero]
        positivity

/-- the digits and exponent of a number -/
theorem print_c {s : Bool} {m e : Nat} (h : Nrm m) (he : Pe e) : ∃ (k : Nat) (F : Int), 0 < k ∧ k < 10 ^ 19 ∧ k % 10 ≠ 0 ∧ |F| ≤ 6100000000 ∧
    (281474976710656 ≤ e + 8589934592 ∧ e ≤ 281474976710656 + 8589934592 → |F| ≤ 3100000000) ∧
    to_approx_string (mk' s m e) = (digitText k F >>= fun ds => pure (if s then '-' :: ds else ds)) ∧
    |(k : ℚ) * 10 ^ F - mg m e| ≤ 199 / 10 ^ 20 * mg m e := by
  obtain ⟨m', e', E, s1, s2, s3, s4, s5, s5', s6⟩ := scale_c (s := s) h he
  obtain ⟨n, n1, n2, n3⟩ := to_u128_mid s2 (by norm_num at s3 ⊢; linarith) (by norm_num at s4 ⊢; linarith)
  have hn1 : 9 * 10 ^ 17 ≤ n := by
    have : (9 * 10 ^ 17 : ℚ) ≤ n := by linarith
    exact_mod_cast this
  have hn2 : n < 10 ^ 25 := by
    have : (n : ℚ) < 10 ^ 25 := by linarith
    exact_mod_cast this
  obtain ⟨q, k, F, d1, d2, d3, d4, d5, d6, d7⟩ := digits_c (E := E) hn1 hn2
  refine ⟨k, F, d3, d4, d5, ?_, fun hh => ?_, ?_, ?_⟩
  · rw [abs_le] at *
    omega
  · have s5' := s5' hh
    rw [abs_le] at d6 s5' ⊢
    omega
  · rw [to_approx_string, is_zero_mk h, if_neg (by simpa [Z] using nz_exp (s := s) (m := m) (by have := he.1; omega)), s1, pure_bind, n1, pure_bind]
    show (unwrapO (some n) >>= _) = _
    rw [unwrapO_some, pure_bind]
    simp only [d1, pure_bind, d2, is_neg_mk h]
  · have pE : (0 : ℚ) < 10 ^ E := by positivity
    have hv := mg_pos (e := e) h
    have t1 : (n : ℚ) * 10 ^ E ≤ mg m' e' * 10 ^ E := mul_le_mul_of_nonneg_right n2 pE.le
    have hnq : (9 * 10 ^ 17 : ℚ) ≤ n := by exact_mod_cast hn1
    have t2 : mg m' e' * 10 ^ E ≤ n * (1 + 1 / (9 * 10 ^ 17)) * 10 ^ E := mul_le_mul_of_nonneg_right (by
      have : (1 : ℚ) ≤ n * (1 / (9 * 10 ^ 17)) := by rw [mul_one_div, le_div_iff₀ (by norm_num)]; linarith
      linarith) pE.le
    rw [abs_le] at *
    have t0 : (0 : ℚ) ≤ n * 10 ^ E := by positivity
    rw [mul_right_comm] at t2
    generalize mg m e = v at *
    generalize mg m' e' * 10 ^ E = w at *
    generalize (n : ℚ) * 10 ^ E = u at *
    generalize (k : ℚ) * 10 ^ F = z at *
    obtain ⟨s6, s7⟩ := s6
    obtain ⟨d7, d8⟩ := d7
    norm_num at *
    constructor <;> linarith

theorem exp_le {m e : Nat} {c : Int} (h : Nrm m) (hc : mg m e ≤ 2 ^ c) : (e : Int) - 281474976710656 + 127 ≤ c := by
  have h1 : (2 : ℚ) ^ ((e : Int) - 281474976710656 + 127) ≤ mg m e := by
    rw [zpow_add₀ (by norm_num), mul_comm, mg_eq]
    have h2 : ((2 : ℚ) ^ (127 : Int)) ≤ m := by
      have := h.1
      exact_mod_cast this
    exact mul_le_mul_of_nonneg_right h2 (ulp_pos e).le
  exact (zpow_le_zpow_iff_right₀ (by norm_num : (1 : ℚ) < 2)).1 (h1.trans hc)

theorem exp_ge {m e : Nat} {c : Int} (h : Nrm m) (hc : 2 ^ c ≤ mg m e) : c < (e : Int) - 281474976710656 + 128 := by
  have h1 : mg m e < (2 : ℚ) ^ ((e : Int) - 281474976710656 + 128) := by
    rw [zpow_add₀ (by norm_num), mul_comm, mg_eq]
    have h2 : (m : ℚ) < (2 : ℚ) ^ (128 : Int) := by
      have := h.2
      exact_mod_cast this
    exact mul_lt_mul_of_pos_right h2 (ulp_pos e)
  exact (zpow_lt_zpow_iff_right₀ (by norm_num : (1 : ℚ) < 2)).1 (hc.trans_lt h1)

end F192
end Hmath
