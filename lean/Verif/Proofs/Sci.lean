import Verif.Proofs.Print

/-!
# Scientific notation
-/

namespace Hmath
namespace UBig

theorem tenPow64 : ([0, 0, 3211403009, 1849224548, 3668416493, 3913284084, 1593091] : List Nat)
    = ofNat (10 ^ 64) := by
  have hv : Valid [0, 0, 3211403009, 1849224548, 3668416493, 3913284084, 1593091] := by decide
  have : val [0, 0, 3211403009, 1849224548, 3668416493, 3913284084, 1593091] = 10 ^ 64 := by
    norm_num [val, Nat.ofDigits_cons]
  rw [hv.eq_ofNat, this]

theorem sciBig_eq (n : Nat) (e : Nat) :
    ∃ j, sciBig (ofNat n) e = pure (ofNat (n / 10 ^ j), e + j) ∧
      (j = 0 ∨ 10 ^ 10 ≤ n / 10 ^ j ∧ B64 ≤ n) := by
  induction n using Nat.strong_induction_on generalizing e with
  | _ n ih =>
    rw [sciBig]
    by_cases h : (ofNat n).length > 8
    · have hn : B32 ^ 8 ≤ n := (length_ofNat_gt_iff (by decide)).1 h
      rw [if_pos h, tenPow64, div_mut, div_c (by decide)]
      simp only [pure_bind]
      obtain ⟨j, h1, h2⟩ := ih (n / 10 ^ 64) (Nat.div_lt_self (by omega) (by norm_num)) (e + 64)
      refine ⟨64 + j, ?_, .inr ⟨?_, le_trans (by norm_num) hn⟩⟩
      · rw [h1, Nat.pow_add, Nat.div_div_eq_div_mul, Nat.add_assoc]
      · rcases h2 with h2 | h2
        · rw [h2, Nat.add_zero, Nat.le_div_iff_mul_le (by norm_num)]
          refine le_trans ?_ hn
          norm_num
        · rw [Nat.pow_add, ← Nat.div_div_eq_div_mul]; exact h2.1
    · rw [if_neg h]
      exact ⟨0, by simp, .inl rfl⟩

theorem sciSmall_eq (n : Nat) (e : Nat) :
    ∃ j, sciSmall (ofNat n) e = pure (ofNat (n / 10 ^ j), e + j) ∧
      (j = 0 ∨ 10 ^ 10 ≤ n / 10 ^ j ∧ B64 ≤ n) ∧ n / 10 ^ j < B64 := by
  induction n using Nat.strong_induction_on generalizing e with
  | _ n ih =>
    rw [sciSmall]
    by_cases h : (ofNat n).length > 2
    · have hn : B32 ^ 2 ≤ n := (length_ofNat_gt_iff (by decide)).1 h
      have e9 : (1000000000 : Nat) = 10 ^ 9 := by norm_num
      rw [if_pos h, div_u32_mut_c (by decide) (by decide), e9]
      simp only [pure_bind]
      obtain ⟨j, h1, h2, h3⟩ := ih (n / 10 ^ 9) (Nat.div_lt_self (by omega) (by norm_num)) (e + 9)
      refine ⟨9 + j, ?_, .inr ⟨?_, le_trans (by norm_num) hn⟩, ?_⟩
      · rw [h1, Nat.pow_add, Nat.div_div_eq_div_mul, Nat.add_assoc]
      · rcases h2 with h2 | h2
        · rw [h2, Nat.add_zero, Nat.le_div_iff_mul_le (by norm_num)]
          refine le_trans ?_ hn
          norm_num
        · rw [Nat.pow_add, ← Nat.div_div_eq_div_mul]; exact h2.1
      · rw [Nat.pow_add, ← Nat.div_div_eq_div_mul]; exact h3
    · rw [if_neg h]
      refine ⟨0, by simp, .inl rfl, ?_⟩
      have : n < B32 ^ 2 := by
        by_contra hc
        exact h ((length_ofNat_gt_iff (by decide)).2 (by omega))
      have e2 : B32 ^ 2 = B64 := by norm_num
      simpa using this

theorem sciLoop_eq (n : Nat) : ∀ e ds, 0 < n →
    ∃ D : List Nat, sciLoop n e ds = (e + (Nat.toDigits 10 n).length, D ++ ds) ∧
      (∀ d ∈ D, d < 10) ∧ D.map Nat.digitChar = Nat.toDigits 10 n := by
  induction n using Nat.strong_induction_on with
  | _ n ih =>
    intro e ds hn
    rw [sciLoop, dif_pos hn]
    by_cases h : n < 10
    · rw [Nat.div_eq_of_lt h, Nat.mod_eq_of_lt h, sciLoop, dif_neg (by omega),
        Nat.toDigits_of_lt_base h]
      exact ⟨[n], rfl, by simpa using h, rfl⟩
    · obtain ⟨D, h1, h2, h3⟩ := ih (n / 10) (by omega) (e + 1) (n % 10 :: ds) (by omega)
      refine ⟨D ++ [n % 10], ?_, ?_, ?_⟩
      · rw [h1, Nat.toDigits_of_base_le (by decide) (by omega : 10 ≤ n)]
        simp only [List.length_append, List.length_singleton, List.append_assoc,
          List.singleton_append, Prod.mk.injEq, and_true]
        omega
      · intro d hd
        rcases List.mem_append.1 hd with hd | hd
        · exact h2 d hd
        · rw [List.mem_singleton] at hd; omega
      · rw [List.map_append, h3, Nat.toDigits_of_base_le (by decide) (by omega : 10 ≤ n)]
        rfl

/-- trailing zeros of a digit list dropped -/
def strip0 (l : List Nat) : List Nat := (l.reverse.dropWhile (· = 0)).reverse

theorem strip0_snoc (l : List Nat) (x : Nat) :
    strip0 (l ++ [x]) = if x = 0 then strip0 l else l ++ [x] := by
  unfold strip0
  rw [List.reverse_append, List.reverse_singleton, List.singleton_append, List.dropWhile_cons]
  by_cases h : x = 0
  · simp [h]
  · simp [h]

theorem sciPop_eq (max : Nat) (hm : 1 ≤ max) (d0 : Nat) (ds : List Nat) :
    (sciPop max (d0 :: ds).reverse).reverse = d0 :: strip0 (ds.take (max - 1)) := by
  induction ds using List.reverseRecOn with
  | nil =>
    have h : ¬(([] : List Nat).length + 1 > max ∨ (([] : List Nat).length + 1 > 1 ∧ d0 = 0)) := by
      simp only [List.length_nil]; omega
    simp only [List.reverse_singleton, sciPop, if_neg h]
    simp [strip0]
  | append_singleton ds x ih =>
    have hr : (d0 :: (ds ++ [x])).reverse = x :: (d0 :: ds).reverse := by simp
    rw [hr, sciPop]
    have hl : (d0 :: ds).reverse.length = ds.length + 1 := by simp
    rw [hl]
    by_cases h1 : ds.length + 1 + 1 > max
    · rw [if_pos (.inl h1), ih, List.take_append_of_le_length (by omega)]
    · by_cases h2 : x = 0
      · rw [if_pos (.inr ⟨by omega, h2⟩), ih, List.take_of_length_le (l := ds ++ [x]) (by rw [List.length_append]; simp only [List.length_singleton]; omega),
          List.take_of_length_le (by omega), strip0_snoc, if_pos h2]
      · rw [if_neg (by omega), List.take_of_length_le (l := ds ++ [x]) (by rw [List.length_append]; simp only [List.length_singleton]; omega), strip0_snoc, if_neg h2]
        simp

theorem stripZeros_map (l : List Nat) (h : ∀ d ∈ l, d < 10) :
    stripZeros (l.map Nat.digitChar) = (strip0 l).map Nat.digitChar := by
  unfold stripZeros strip0
  rw [← List.map_reverse, List.dropWhile_map, ← List.map_reverse]
  congr 2
  have : ∀ m : List Nat, (∀ d ∈ m, d < 10) →
      m.dropWhile ((fun c => decide (c = '0')) ∘ Nat.digitChar) = m.dropWhile (· = 0) := by
    intro m
    induction m with
    | nil => intro _; rfl
    | cons d m ih =>
      intro hm
      have hd := digitChar_eq_zero d (by have := hm d (by simp); omega)
      rw [List.dropWhile_cons, List.dropWhile_cons, ih (fun e he => hm e (by simp [he]))]
      simp only [Function.comp, hd]
  exact this _ (fun d hd => h d (by simpa using hd))

theorem flatten_digits (l : List Nat) (h : ∀ d ∈ l, d < 10) :
    (l.map (Nat.toDigits 10)).flatten = l.map Nat.digitChar := by
  induction l with
  | nil => rfl
  | cons d l ih =>
    rw [List.map_cons, List.flatten_cons, Nat.toDigits_of_lt_base (h d (by simp)),
      ih (fun e he => h e (by simp [he]))]
    rfl

theorem sciFormat_eq (d : Nat) (ds : List Nat) (hd : d < 10) (h : ∀ e ∈ ds, e < 10) :
    sciFormat (d :: ds) = Nat.digitChar d ::
      (if ds.map Nat.digitChar = [] then [] else '.' :: ds.map Nat.digitChar) := by
  cases ds with
  | nil => simp [sciFormat, Nat.toDigits_of_lt_base hd]
  | cons e es =>
    rw [sciFormat, flatten_digits _ h, Nat.toDigits_of_lt_base hd, if_neg (by simp)]
    · rfl
    · simp

theorem mem_strip0 {l : List Nat} {d : Nat} (h : d ∈ strip0 l) : d ∈ l := by
  unfold strip0 at h
  rw [List.mem_reverse] at h
  have := (List.dropWhile_sublist _).subset h
  simpa using this

theorem sciOf_eq (n k : Nat) (hn : 0 < n) (hk : 1 ≤ k) :
    sciOf n k = ((Nat.toDigits 10 n).take 1 ++
        (if stripZeros ((Nat.toDigits 10 n).tail.take (k - 1)) = [] then []
         else '.' :: stripZeros ((Nat.toDigits 10 n).tail.take (k - 1))),
      (Nat.toDigits 10 n).length - 1) := by
  obtain ⟨D, h1, h2, h3⟩ := sciLoop_eq n 0 [] hn
  unfold sciOf
  simp only [h1, List.append_nil]
  cases D with
  | nil =>
    exact absurd h3.symm Nat.toDigits_ne_nil
  | cons d ds =>
    have hds : ∀ e ∈ ds, e < 10 := fun e he => h2 e (by simp [he])
    rw [sciPop_eq k hk, if_pos (by simp), sciFormat_eq d _ (h2 d (by simp))
      (fun e he => hds e (List.mem_of_mem_take (mem_strip0 he)))]
    rw [← h3]
    simp only [List.map_cons, List.tail_cons, List.take_succ_cons, List.take_zero,
      List.length_cons, List.length_map, Nat.zero_add, List.singleton_append]
    rw [← List.map_take, stripZeros_map _ (fun e he => hds e (List.mem_of_mem_take he))]

theorem log_eq_length (n : Nat) (hn : 0 < n) : Nat.log 10 n = (Nat.toDigits 10 n).length - 1 := by
  have hp := @Nat.length_toDigits_pos 10 n
  obtain ⟨L, hL⟩ : ∃ L, (Nat.toDigits 10 n).length = L + 1 := ⟨_, (Nat.succ_pred_eq_of_pos hp).symm⟩
  rw [hL, Nat.add_sub_cancel]
  have h1 : n < 10 ^ (L + 1) := (Nat.length_toDigits_le_iff (by decide) (by omega)).1 (le_of_eq hL)
  refine (Nat.log_eq_iff (.inr ⟨by decide, by omega⟩)).2 ⟨?_, h1⟩
  by_cases hz : L = 0
  · rw [hz]; exact hn
  · by_contra hc
    have := (Nat.length_toDigits_le_iff (b := 10) (n := n) (k := L) (by decide) (by omega)).2
      (by omega)
    omega

theorem sci_eq {a : UBig} (ha : Valid a) (k : Nat) (hk : 1 ≤ k) (hn : 0 < val a)
    (h : k ≤ 11 ∨ val a < B64) :
    to_scientific_notation a k = pure (sciSpec (val a) k) := by
  rw [ha.eq_ofNat, val_ofNat]
  generalize val a = n at hn h
  obtain ⟨j1, b1, b2⟩ := sciBig_eq n 0
  obtain ⟨j2, c1, c2, c3⟩ := sciSmall_eq (n / 10 ^ j1) (0 + j1)
  unfold to_scientific_notation
  rw [b1]
  simp only [pure_bind]
  rw [c1]
  simp only [pure_bind]
  have hdd : n / 10 ^ j1 / 10 ^ j2 = n / 10 ^ (j1 + j2) := by
    rw [Nat.div_div_eq_div_mul, Nat.pow_add]
  rw [hdd] at c2 c3 ⊢
  have hj : j1 + j2 = 0 ∨ 10 ^ 10 ≤ n / 10 ^ (j1 + j2) ∧ B64 ≤ n := by
    rcases c2 with c2 | c2
    · rcases b2 with b2 | b2
      · exact .inl (by omega)
      · right; rw [c2, Nat.add_zero]; exact b2
    · exact .inr ⟨c2.1, le_trans c2.2 (Nat.div_le_self _ _)⟩
  rw [to_u64_c, if_pos c3]
  simp only [pure_bind, unwrapR]
  have hm : 0 < n / 10 ^ (j1 + j2) := by
    rcases hj with hj | hj
    · rw [hj]; simpa using hn
    · exact lt_of_lt_of_le (by norm_num) hj.1
  rw [sciOf_eq _ k hm hk]
  clear b1 c1 b2 c2 hdd
  rw [Nat.zero_add]
  generalize j1 + j2 = J at hj c3 hm ⊢
  have hlen : J = 0 ∨ k ≤ (Nat.toDigits 10 (n / 10 ^ J)).length := by
    rcases hj with hj | hj
    · exact .inl hj
    · right
      have hL : 11 ≤ (Nat.toDigits 10 (n / 10 ^ J)).length := by
        by_contra hc
        have := (Nat.length_toDigits_le_iff (b := 10) (n := n / 10 ^ J) (k := 10) (by decide)
          (by decide)).1 (by omega)
        omega
      rcases h with h | h
      · omega
      · omega
  have hdig := toDigits_append_pad (b := 10) (by decide) hm J (n % 10 ^ J)
    (Nat.mod_lt _ (Nat.pow_pos (by decide)))
  have hdm : n / 10 ^ J * 10 ^ J + n % 10 ^ J = n := by
    rw [Nat.mul_comm]; exact Nat.div_add_mod n _
  rw [hdm] at hdig
  have hp := @Nat.length_toDigits_pos 10 (n / 10 ^ J)
  have hlog : J + ((Nat.toDigits 10 (n / 10 ^ J)).length - 1) = Nat.log 10 n := by
    rw [log_eq_length n hn, ← hdig, List.length_append, padDigits_length]
    omega
  refine congrArg pure ?_
  unfold sciSpec
  simp only []
  rw [hlog]
  have ht : (Nat.toDigits 10 n).take 1 = (Nat.toDigits 10 (n / 10 ^ J)).take 1 := by
    rw [← hdig, List.take_append_of_le_length hp]
  have hf : (Nat.toDigits 10 n).tail.take (k - 1)
      = (Nat.toDigits 10 (n / 10 ^ J)).tail.take (k - 1) := by
    rcases hlen with h0 | h0
    · rw [h0]; simp
    · rw [← hdig, List.tail_append_of_ne_nil Nat.toDigits_ne_nil,
        List.take_append_of_le_length (by rw [List.length_tail]; omega)]
  rw [ht, hf]

end UBig
end Hmath
