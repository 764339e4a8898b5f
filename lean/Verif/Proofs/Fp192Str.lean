import Verif.Model.Fp192Str
import Verif.Proofs.Fp192Pow
import Verif.Props.Fp192

/-!
# 192-bit floating point numbers: parsing
-/

namespace Hmath
namespace F192

open Props

/-! ### exact arithmetic with natural numbers -/

/-- the number with value `n`, for `n < 2^128` -/
def nv (n : Nat) : F192 := if n = 0 then ZERO else mk' false (n * 2 ^ lz128 n) (281474976710656 - lz128 n)

theorem nv_zero : nv 0 = ZERO := rfl

theorem from_nv {n : Nat} (h : n < B128) : from_uint n = pure (nv n) := by
  by_cases h0 : n = 0
  · subst h0; rfl
  · rw [nv, if_neg h0, from_uint, from_u128_c h0 h]

theorem valid_nv {n : Nat} (h : n < B128) : FValid (nv n) := by
  obtain ⟨x, h1, h2, -⟩ := from_uint_c h
  rw [from_nv h] at h1
  rw [Except.ok.inj (Option.some.inj h1)]
  exact h2

theorem fval_nv {n : Nat} (h : n < B128) : fval (nv n) = n := by
  obtain ⟨x, h1, -, h2⟩ := from_uint_c h
  rw [from_nv h] at h1
  rw [Except.ok.inj (Option.some.inj h1)]
  exact h2

theorem nv_of_fval {x : F192} {n : Nat} (hx : FValid x) (h : n < B128) (hv : fval x = n) : x = nv n :=
  fval_inj hx (valid_nv h) (by rw [hv, fval_nv h])

theorem nv_exp {n : Nat} (h0 : n ≠ 0) (h : n < B128) : 281474976710529 ≤ (nv n).exp ∧ (nv n).exp ≤ 281474976710656 := by
  obtain ⟨h1, -⟩ := lz_bounds h0 h
  rw [nv, if_neg h0, mk_exp]
  omega

/-- an exact result that is a number of the format is the result -/
theorem trunc_nv {z : F192} {n : Nat} (h : n < B128) (hz : Truncates z n) : z = nv n := by
  obtain ⟨h1, h2, h3, h4⟩ := hz
  refine nv_of_fval h1 h ?_
  have h5 := h4 _ (valid_nv h) (by rw [fval_nv h])
  rw [fval_nv h] at h5
  have h6 : |fval z| = n := by
    have h7 : |(n : ℚ)| = n := Nat.abs_cast n
    rw [h7] at h3 h5
    exact le_antisymm h3 h5
  rcases Nat.eq_zero_or_pos n with h0 | h0
  · subst h0
    rw [Nat.cast_zero] at h6 ⊢
    exact abs_eq_zero.1 h6
  · rw [sign_pos (by exact_mod_cast h0 : (0 : ℚ) < n), sign_eq_one_iff] at h2
    rwa [abs_of_pos h2] at h6

theorem nv_ne_tiny {n : Nat} (h : n < B128) : nv n ≠ negTiny := by
  intro hc
  by_cases h0 : n = 0
  · rw [h0, nv_zero] at hc
    exact absurd hc (by decide)
  · have := nv_exp h0 h
    rw [hc] at this
    exact absurd this.1 (by decide)

theorem add_nv {a b : Nat} (h : a + b < B128) : add (nv a) (nv b) = pure (nv (a + b)) := by
  have ha : a < B128 := by omega
  have hb : b < B128 := by omega
  have e1 : ∀ {n : Nat}, n < B128 → (nv n).exp < 2 ^ 64 - 1 := by
    intro n hn
    by_cases h0 : n = 0
    · rw [h0]; decide
    · have := (nv_exp h0 hn).2; omega
  obtain ⟨z, h1, h2, -⟩ := C41_add_same (valid_nv ha) (valid_nv hb)
    (by rw [fval_nv ha, fval_nv hb]; positivity) (e1 ha) (e1 hb) (nv_ne_tiny ha) (nv_ne_tiny hb)
  rw [fval_nv ha, fval_nv hb, ← Nat.cast_add] at h2
  rw [h1, trunc_nv h h2]

theorem nv_digits {n : Nat} (h : n < 79228162514264337593543950336) : (nv n).digits % 2 ^ 32 = 0 := by
  by_cases h0 : n = 0
  · rw [h0]; rfl
  obtain ⟨h1, h2⟩ := lz_bounds h0 (by omega : n < B128)
  have hl : 32 ≤ lz128 n := by
    by_contra hc
    have h3 : 2 ^ lz128 n ≤ 2 ^ 31 := Nat.pow_le_pow_right (by norm_num) (by omega)
    have h4 : n * 2 ^ lz128 n ≤ n * 2 ^ 31 := Nat.mul_le_mul_left _ h3
    have := h2.1
    omega
  obtain ⟨k, hk⟩ : ∃ k, n * 2 ^ lz128 n = 2 ^ 32 * k := by
    refine ⟨n * 2 ^ (lz128 n - 32), ?_⟩
    rw [mul_left_comm, ← pow_add, show 32 + (lz128 n - 32) = lz128 n by omega]
  rw [nv, if_neg h0]
  change dg false _ % _ = 0
  rw [dg_false, hk]
  have := h2.1
  rw [hk] at this
  omega

/-- multiplication by a small number: exact, or a panic for `a ≥ 2^96` -/
theorem mul_i32_nv {a k : Nat} (h : a * k < B128) (hk : k < 2147483648) (hk0 : 0 < k) :
    mul_i32 (nv a) k = pure (nv (a * k)) ∨ 79228162514264337593543950336 ≤ a ∧ Panics (mul_i32 (nv a) k) := by
  have ha : a < B128 := lt_of_le_of_lt (Nat.le_mul_of_pos_right a hk0) h
  have h0 : (nv a).exp ≠ 0 ∨ nv a = ZERO := by
    by_cases h0 : a = 0
    · right; rw [h0]; rfl
    · left; have := (nv_exp h0 ha).1; omega
  have hi : IsI32 k := by unfold IsI32; omega
  by_cases hb : a < 79228162514264337593543950336
  · left
    obtain ⟨z, h1, h2, -⟩ := C41_mul_i32_partial (valid_nv ha) hi (by omega) h0 (by
      by_cases h0 : a = 0
      · rw [h0]; decide
      · have := (nv_exp h0 ha).2; omega) (nv_digits hb)
    rw [fval_nv ha, Int.cast_natCast, ← Nat.cast_mul] at h2
    rw [h1, trunc_nv h h2]
  · rcases C41_mul_i32_returned (valid_nv ha) hi h0 with hp | ⟨z, h1, h2, -⟩
    · exact Or.inr ⟨by omega, hp⟩
    · left
      rw [fval_nv ha, Int.cast_natCast, ← Nat.cast_mul] at h2
      rw [h1, trunc_nv h h2]

/-! ### digits -/

/-- the value of decimal digits in front of which `a` was read -/
def dval : Str → Nat → Nat
  | [], a => a
  | c :: s, a => dval s (a * 10 + (c.toNat - 48))

theorem digit_c {c : Char} (h : isDigit c = true) : 48 ≤ c.toNat ∧ c.toNat ≤ 57 ∧ toDigit 10 c = some (c.toNat - 48) := by
  unfold isDigit toDigit at h
  unfold toDigit
  by_cases h1 : 48 ≤ c.toNat ∧ c.toNat ≤ 57
  · simp only [h1, and_self, if_true] at h ⊢
    rw [if_pos (by omega)]
    simp
  · exfalso
    simp only [h1, if_false] at h
    split_ifs at h <;> first | omega | simp at h

theorem decFold_c : ∀ (s : Str) (a : Nat), (∀ c ∈ s, isDigit c = true) → decFold s a = some (dval s a)
  | [], a, _ => rfl
  | c :: s, a, h => by
    rw [decFold, (digit_c (h c (List.mem_cons_self ..))).2.2]
    exact decFold_c s _ (fun c hc => h c (List.mem_cons_of_mem _ hc))

theorem dval_eq : ∀ (s : Str) (a : Nat), dval s a = a * 10 ^ s.length + dval s 0
  | [], a => by simp [dval]
  | c :: s, a => by
    rw [dval, dval, dval_eq s (a * 10 + (c.toNat - 48)), dval_eq s (0 * 10 + (c.toNat - 48)), List.length_cons, pow_succ]
    ring

theorem dval_append : ∀ (s t : Str) (a : Nat), dval (s ++ t) a = dval t (dval s a)
  | [], _, _ => rfl
  | c :: s, t, a => by rw [List.cons_append, dval, dval, dval_append s t]

theorem dval_lt : ∀ (s : Str), (∀ c ∈ s, isDigit c = true) → dval s 0 < 10 ^ s.length
  | [], _ => by simp [dval]
  | c :: s, h => by
    have h1 := digit_c (h c (List.mem_cons_self ..))
    have h2 := dval_lt s (fun c hc => h c (List.mem_cons_of_mem _ hc))
    rw [dval, dval_eq, List.length_cons, pow_succ]
    have h3 : (0 * 10 + (c.toNat - 48)) * 10 ^ s.length ≤ 9 * 10 ^ s.length := Nat.mul_le_mul_right _ (by omega)
    omega

theorem dval_mono (s : Str) (a : Nat) : a ≤ dval s a := by
  rw [dval_eq]
  exact le_trans (Nat.le_mul_of_pos_right a (by positivity)) (Nat.le_add_right _ _)

/-- `m` is exact, or it panics because the number is `2^96` or more -/
def ExactOr (m : M F192) (n : Nat) : Prop := m = pure (nv n) ∨ 79228162514264337593543950336 ≤ n ∧ Panics m

theorem singleLoop_c : ∀ (s : Str) (a : Nat), (∀ c ∈ s, isDigit c = true) → dval s a < B128 → ExactOr (singleLoop s (nv a)) (dval s a)
  | [], a, _, _ => Or.inl rfl
  | c :: s, a, h, hb => by
    obtain ⟨d1, d2, -⟩ := digit_c (h c (List.mem_cons_self ..))
    rw [dval] at hb ⊢
    have hm := dval_mono s (a * 10 + (c.toNat - 48))
    rw [singleLoop]
    rcases mul_i32_nv (a := a) (k := 10) (by omega) (by norm_num) (by norm_num) with h1 | ⟨h1, h2⟩
    · rw [show ((10 : Nat) : Int) = 10 from rfl] at h1
      rw [h1, pure_bind, uSub_eq (by omega), pure_bind, from_nv (by omega), pure_bind, add_nv (by omega), pure_bind]
      exact singleLoop_c s _ (fun c hc => h c (List.mem_cons_of_mem _ hc)) hb
    · exact Or.inr ⟨by omega, panics_bind h2 _⟩

theorem digitLoop_c (s : Str) : ∀ a : Nat, (∀ c ∈ s, isDigit c = true) → dval s a < B128 → ExactOr (digitLoop s (nv a)) (dval s a) := by
  induction hn : s.length using Nat.strong_induction_on generalizing s with
  | _ n ih =>
    intro a h hb
    subst hn
    rw [digitLoop]
    by_cases h6 : s.length > 6
    · rw [if_pos h6]
      have h1 : ∀ c ∈ s.take 6, isDigit c = true := fun c hc => h c (List.mem_of_mem_take hc)
      have h2 : ∀ c ∈ s.drop 6, isDigit c = true := fun c hc => h c (List.mem_of_mem_drop hc)
      have hl : (s.take 6).length = 6 := by rw [List.length_take]; omega
      have hlt := dval_lt _ h1
      rw [hl] at hlt
      have he := dval_append (s.take 6) (s.drop 6) a
      rw [List.take_append_drop, dval_eq (s.take 6) a, hl] at he
      rw [he] at hb ⊢
      have hm := dval_mono (s.drop 6) (a * 10 ^ 6 + dval (s.take 6) 0)
      have hp : parseUInt (s.take 6) = some (dval (s.take 6) 0) := by
        rw [parseUInt, if_neg (by intro hc; rw [hc] at hl; simp at hl), decFold_c _ _ h1]
      rcases mul_i32_nv (a := a) (k := 1000000) (by omega) (by norm_num) (by norm_num) with g1 | ⟨g1, g2⟩
      · rw [show ((1000000 : Nat) : Int) = 1000000 from rfl] at g1
        rw [g1, pure_bind, hp, unwrapO_some, pure_bind, from_nv (by omega), pure_bind, add_nv (by omega), pure_bind]
        rw [show a * 10 ^ 6 = a * 1000000 by norm_num] at hb ⊢
        exact ih (s.drop 6).length (by rw [List.length_drop]; omega) (s.drop 6) rfl _ h2 hb
      · exact Or.inr ⟨by omega, panics_bind g2 _⟩
    · rw [if_neg h6]
      exact singleLoop_c s a h hb

/-! ### powers of ten -/

/-- the base: ten -/
theorem nv_ten : nv 10 = mk' false 212676479325586539664609129644855132160 281474976710532 := by decide +kernel

theorem nrm_ten : Nrm 212676479325586539664609129644855132160 := by constructor <;> norm_num

theorem mg_ten : mg 212676479325586539664609129644855132160 281474976710532 = 10 := by
  rw [show 281474976710532 = 281474976710656 - 124 by norm_num, mg_coeff_sub (by norm_num)]; norm_num

theorem isPow_ten {n : Nat} (hn : n < 37) : IsPow false 212676479325586539664609129644855132160 281474976710532 (nv (10 ^ n)) n (n / 3) := by
  have h10 : 10 ^ n < B128 := lt_of_le_of_lt (Nat.pow_le_pow_right (by norm_num) (by omega : n ≤ 36)) (by norm_num)
  have h0 : 10 ^ n ≠ 0 := by positivity
  obtain ⟨l1, l2⟩ := lz_bounds h0 h10
  have hv := fval_nv h10
  have hz : ¬Z false (10 ^ n * 2 ^ lz128 (10 ^ n)) (281474976710656 - lz128 (10 ^ n)) := nz_exp (by omega)
  have he : (nv (10 ^ n)) = mk' false (10 ^ n * 2 ^ lz128 (10 ^ n)) (281474976710656 - lz128 (10 ^ n)) := by rw [nv, if_neg h0]
  rw [he, fval_mk l2 hz, sgn_false, one_mul] at hv
  have hb : n * 3 ≤ 127 - lz128 (10 ^ n) ∧ 127 - lz128 (10 ^ n) ≤ n * 3 + n / 3 := by
    have : ∀ n < 37, n * 3 ≤ 127 - lz128 (10 ^ n) ∧ 127 - lz128 (10 ^ n) ≤ n * 3 + n / 3 := by decide +kernel
    exact this n hn
  refine ⟨10 ^ n * 2 ^ lz128 (10 ^ n), 281474976710656 - lz128 (10 ^ n), by rw [he]; simp [psign], l2, ?_, ?_, ?_, ?_⟩
  · push_cast [Nat.cast_sub (show lz128 (10 ^ n) ≤ 281474976710656 by omega)]; omega
  · push_cast [Nat.cast_sub (show lz128 (10 ^ n) ≤ 281474976710656 by omega)]; omega
  · rw [hv, mg_ten]
    push_cast
    refine mul_le_of_le_one_right (by positivity) (pow_le_one₀ (by linarith [ue_lt]) (by linarith [ue_pos]))
  · rw [hv, mg_ten]; push_cast; exact le_refl _

theorem pow10_isPow : ∀ n : Nat, n ≤ 3000000000000000000 → ∃ r k, pow10_worker n = pure r ∧ (n < 37 → r = nv (10 ^ n)) ∧
    IsPow false 212676479325586539664609129644855132160 281474976710532 r n k ∧ k ≤ n ∧ (18 ≤ n → 2 * k + 4 ≤ n) := by
  intro n
  induction n using Nat.strong_induction_on with
  | _ n ih =>
    intro hN
    rw [pow10_worker]
    by_cases h : n < 37
    · rw [if_pos h, from_nv (lt_of_le_of_lt (Nat.pow_le_pow_right (by norm_num) (by omega : n ≤ 36)) (by norm_num))]
      exact ⟨_, _, rfl, fun _ => rfl, isPow_ten h, by omega, by omega⟩
    · rw [if_neg h]
      have hR : ∀ {j : Nat}, j ≤ n → PRange 281474976710532 j := by
        intro j hj
        unfold PRange
        norm_num
        constructor <;> omega
      obtain ⟨r, k, h1, -, h2, h3, h4⟩ := ih (n / 2) (by omega) (by omega)
      obtain ⟨q, g1, g2⟩ := h2.mul nrm_ten h2 (by omega) (hR (by omega))
      rw [h1, pure_bind, g1, pure_bind]
      by_cases hb : n % 2 = 1
      · rw [if_pos hb, from_nv (by norm_num), pure_bind, nv_ten]
        obtain ⟨p, f1, f2⟩ := g2.mul nrm_ten (isPow_self nrm_ten) (by omega) (hR (by omega))
        refine ⟨p, k + k + 1 + 0 + 1, f1, fun hc => absurd hc h, ?_, by omega, fun _ => by omega⟩
        rwa [show n / 2 + n / 2 + 1 = n by omega] at f2
      · rw [if_neg hb]
        refine ⟨q, k + k + 1, rfl, fun hc => absurd hc h, ?_, by omega, fun _ => by omega⟩
        rwa [show n / 2 + n / 2 = n by omega] at g2

theorem pow10_worker_c {n : Nat} (hn : n ≤ 3000000000000000000) : ∃ m e : Nat, pow10_worker n = pure (mk' false m e) ∧ Nrm m ∧
    3 * n + 281474976710529 ≤ e ∧ e ≤ 281474976710529 + 5 * n ∧ (10 : ℚ) ^ n * (1 - n / 2 ^ 124) ≤ mg m e ∧ mg m e ≤ 10 ^ n := by
  obtain ⟨r, k, h1, -, h2, h3, -⟩ := pow10_isPow n hn
  obtain ⟨m, e, rfl, g1, g2, g3, g4, g5⟩ := h2.err nrm_ten (by omega)
  rw [mg_ten] at g4 g5
  refine ⟨m, e, h1.trans (by simp [psign]), g1, by omega, by omega, g4, g5⟩

theorem pow10_pos {n : Nat} : pow10 n = pow10_worker n := by
  rw [pow10, i64Abs_c (by omega), pure_bind, if_neg (by omega), Int.natAbs_natCast]

theorem two_le_mg {m k : Nat} (h : Nrm m) : (2 : ℚ) ^ k ≤ mg m (281474976710529 + k) := by
  have : mg m (281474976710529 + k) = m / 2 ^ 127 * 2 ^ k := by
    rw [mg, show (((281474976710529 + k : Nat) : ℤ) - 2 ^ 48) = (k : ℤ) + -127 by push_cast; ring, zpow_add₀ (by norm_num), zpow_natCast]
    norm_num
    ring
  rw [this]
  refine le_mul_of_one_le_left (by positivity) ?_
  rw [one_le_div (by positivity)]
  exact_mod_cast h.1

theorem mg_lt_two {m k : Nat} (h : Nrm m) : mg m (281474976710529 + k) < 2 ^ (k + 1) := by
  have := mg_lt_of_exp (e₁ := 281474976710529 + k) (e₂ := 281474976710529 + (k + 1)) h (m₂ := 2 ^ 127) ⟨by norm_num, by norm_num⟩ (by omega)
  rwa [mg_add (2 ^ 127), show mg (2 ^ 127) 281474976710529 = 1 by simp [mg]; norm_num, one_mul] at this

/-- `r` is `10^n`, after `k` roundings -/
def Ten (r : F192) (n k : Nat) : Prop := ∃ m e, r = mk' false m e ∧ Nrm m ∧ 281474976710529 ≤ e ∧ e < B64 ∧
  (10 : ℚ) ^ n * (1 - ue) ^ k ≤ mg m e ∧ mg m e ≤ 10 ^ n

theorem ten_mul {T : Nat} (hT : T = 18446181123756130558) {a b : F192} {n₁ k₁ n₂ k₂ : Nat} (ha : Ten a n₁ k₁) (hb : Ten b n₂ k₂) :
    Panics (mul a b) ∧ 2 ^ T ≤ (10 : ℚ) ^ (n₁ + n₂) ∨
    ∃ r, mul a b = pure r ∧ Ten r (n₁ + n₂) (k₁ + k₂ + 1) ∧ r.exp < 18446462598732841088 := by
  obtain ⟨m, e, rfl, h1, h2, h3, h4, h5⟩ := ha
  obtain ⟨m', e', rfl, g1, g2, g3, g4, g5⟩ := hb
  have hz : ¬Z false m e := nz_exp (by omega)
  have hz' : ¬Z false m' e' := nz_exp (by omega)
  by_cases h : e + e' < B64
  · right
    obtain ⟨n, f, f1, f2, f3, f4, f5, f6, f7, f8⟩ := mul_c h1 g1 hz hz' (by omega) h
    refine ⟨_, f6, ⟨n, f, rfl, f1, by omega, f2, le_trans ?_ f8, le_trans f7 ?_⟩, by rw [mk_exp]; omega⟩
    · have hu := sub_pos.2 ue_lt
      have := mul_le_mul h4 g4 (by positivity) (mg_pos h1).le
      rw [show (1 : ℚ) - 3 / 2 ^ 126 = 1 - ue from rfl]
      refine le_trans (le_of_eq ?_) (mul_le_mul_of_nonneg_right this hu.le)
      rw [pow_succ, pow_add, pow_add]; ring
    · rw [pow_add]
      exact mul_le_mul h5 g5 (mg_pos g1).le (by positivity)
  · left
    refine ⟨⟨.overflow, ?_⟩, ?_⟩
    · rw [mul, is_zero_mk h1, is_zero_mk g1, decide_eq_false (by omega), decide_eq_false (by omega), if_neg (by simp), u64Add, uAdd, mk_exp, mk_exp,
        if_neg h]
      rfl
    · obtain ⟨k, rfl⟩ : ∃ k, e = 281474976710529 + k := ⟨e - 281474976710529, by omega⟩
      obtain ⟨k', rfl⟩ : ∃ k, e' = 281474976710529 + k := ⟨e' - 281474976710529, by omega⟩
      calc (2 : ℚ) ^ T ≤ 2 ^ (k + k') := pow_le_pow_right₀ (by norm_num) (by omega)
        _ = 2 ^ k * 2 ^ k' := pow_add _ _ _
        _ ≤ 10 ^ n₁ * 10 ^ n₂ := mul_le_mul ((two_le_mg h1).trans h5) ((two_le_mg g1).trans g5) (by positivity) (by positivity)
        _ = _ := (pow_add _ _ _).symm

theorem pow10_ten {T : Nat} (hT : T = 18446181123756130558) : ∀ n : Nat, Panics (pow10_worker n) ∧ 2 ^ T ≤ (10 : ℚ) ^ n ∨
    ∃ r k, pow10_worker n = pure r ∧ Ten r n k ∧ k ≤ n ∧ (18 ≤ n → 2 * k + 4 ≤ n) ∧ r.exp < 18446462598732841088 := by
  intro n
  induction n using Nat.strong_induction_on with
  | _ n ih =>
    rw [pow10_worker]
    by_cases h : n < 37
    · have h10 : 10 ^ n < B128 := lt_of_le_of_lt (Nat.pow_le_pow_right (by norm_num) (by omega : n ≤ 36)) (by norm_num)
      rw [if_pos h, from_nv h10]
      obtain ⟨m, e, h1, h2, h3, h4, h5, h6⟩ := isPow_ten h
      rw [mg_ten] at h5 h6
      have hx := nv_exp (by positivity) h10
      have he : (nv (10 ^ n)).exp = e := by rw [h1, mk_exp]
      refine Or.inr ⟨_, n / 3, rfl, ⟨m, e, by rw [h1]; simp [psign], h2, by omega, by omega, h5, h6⟩, by omega, by omega, by omega⟩
    · rw [if_neg h]
      rcases ih (n / 2) (by omega) with ⟨g, g'⟩ | ⟨r, k, g1, g2, g3, g4, -⟩
      · exact Or.inl ⟨panics_bind g _, g'.trans (pow_le_pow_right₀ (by norm_num) (by omega))⟩
      rw [g1, pure_bind]
      rcases ten_mul hT g2 g2 with ⟨f, f'⟩ | ⟨q, f1, f2, f3⟩
      · exact Or.inl ⟨panics_bind f _, f'.trans (pow_le_pow_right₀ (by norm_num) (by omega))⟩
      rw [f1, pure_bind]
      by_cases hb : n % 2 = 1
      · rw [if_pos hb, from_nv (by norm_num), pure_bind, nv_ten]
        have hten : Ten (mk' false 212676479325586539664609129644855132160 281474976710532) 1 0 :=
          ⟨_, _, rfl, nrm_ten, by norm_num, by norm_num, by rw [mg_ten]; norm_num, by rw [mg_ten]; norm_num⟩
        have d := ten_mul hT f2 hten
        rw [show n / 2 + n / 2 + 1 = n by omega] at d
        rcases d with d | ⟨p, d1, d2, d3⟩
        · exact Or.inl d
        · exact Or.inr ⟨p, _, d1, d2, by omega, fun _ => by omega, d3⟩
      · rw [if_neg hb]
        rw [show n / 2 + n / 2 = n by omega] at f2
        exact Or.inr ⟨q, _, rfl, f2, by omega, fun _ => by omega, f3⟩

theorem ten_up_num : (10 : ℕ) ^ 1936274 ≤ 2 ^ 6432163 := by decide +kernel
theorem ten_lo_num : (2 : ℕ) ^ 6107016 ≤ 10 ^ 1838395 := by decide +kernel

/-- an upper bound of the binary logarithm of ten -/
theorem ten_up {k n : Nat} (h : (2 : ℚ) ^ k ≤ 10 ^ n) : 1936274 * k ≤ 6432163 * n := by
  have h3 : (2 : ℕ) ^ k ≤ 10 ^ n := by exact_mod_cast h
  have hn := ten_up_num
  obtain ⟨a, ha⟩ : ∃ a, a = 1936274 := ⟨_, rfl⟩
  obtain ⟨b, hb⟩ : ∃ b, b = 6432163 := ⟨_, rfl⟩
  rw [← ha, ← hb] at hn ⊢
  have h4 : (2 : ℕ) ^ (a * k) ≤ 2 ^ (b * n) := by
    calc (2 : ℕ) ^ (a * k) = (2 ^ k) ^ a := by rw [mul_comm, pow_mul]
      _ ≤ (10 ^ n) ^ a := Nat.pow_le_pow_left h3 a
      _ = (10 ^ a) ^ n := by rw [← pow_mul, ← pow_mul, mul_comm]
      _ ≤ (2 ^ b) ^ n := Nat.pow_le_pow_left hn n
      _ = 2 ^ (b * n) := by rw [← pow_mul]
  exact (Nat.pow_le_pow_iff_right (by norm_num)).1 h4

/-- a lower bound -/
theorem ten_lo {k n : Nat} (hn : n < B64) (h : (10 : ℚ) ^ n * (1 - n / 2 ^ 124) ≤ 2 ^ k) : 6107016 * n ≤ 1838395 * k + 1 := by
  have hq := ten_lo_num
  obtain ⟨a, ha⟩ : ∃ a, a = 1838395 := ⟨_, rfl⟩
  obtain ⟨b, hb⟩ : ∃ b, b = 6107016 := ⟨_, rfl⟩
  rw [← ha, ← hb] at hq ⊢
  have hn' : (n : ℚ) ≤ 18446744073709551616 := by exact_mod_cast hn.le
  have hε : (n : ℚ) / 2 ^ 124 ≤ 18446744073709551616 / 2 ^ 124 := div_le_div_of_nonneg_right hn' (by positivity)
  have h0 : (0 : ℚ) ≤ n / 2 ^ 124 := by positivity
  have hs : (18446744073709551616 : ℚ) / 2 ^ 124 ≤ 1 / 10 ^ 17 := by norm_num
  generalize (n : ℚ) / 2 ^ 124 = ε at *
  have h1 : (1 : ℚ) / 2 ≤ (1 - ε) ^ a := by
    have := one_add_mul_le_pow (a := -ε) (by linarith) a
    rw [← sub_eq_add_neg] at this
    refine le_trans ?_ this
    rw [ha]
    norm_num
    linarith
  have hq' : (2 : ℚ) ^ b ≤ 10 ^ a := by exact_mod_cast hq
  have h2 : (2 : ℚ) ^ (b * n) ≤ 2 ^ (a * k + 1) := by
    calc (2 : ℚ) ^ (b * n) = (2 ^ b) ^ n := pow_mul _ _ _
      _ ≤ (10 ^ a) ^ n := pow_le_pow_left₀ (by positivity) hq' n
      _ = (10 ^ n) ^ a * (1 / 2) * 2 := by rw [← pow_mul, ← pow_mul, mul_comm]; ring
      _ ≤ (10 ^ n) ^ a * (1 - ε) ^ a * 2 := mul_le_mul_of_nonneg_right (mul_le_mul_of_nonneg_left h1 (by positivity)) (by norm_num)
      _ = (10 ^ n * (1 - ε)) ^ a * 2 := by rw [mul_pow]
      _ ≤ (2 ^ k) ^ a * 2 := mul_le_mul_of_nonneg_right (pow_le_pow_left₀ (mul_nonneg (by positivity) (by linarith)) h a) (by norm_num)
      _ = 2 ^ (a * k + 1) := by rw [pow_succ, ← pow_mul, mul_comm a]
  exact (pow_le_pow_iff_right₀ (by norm_num)).1 h2

theorem ten_err {r : F192} {n k : Nat} (h : Ten r n k) (hk : k ≤ n) : ∃ m K : Nat, r = mk' false m (281474976710529 + K) ∧ Nrm m ∧ 281474976710529 + K < B64 ∧
    (10 : ℚ) ^ n * (1 - n / 2 ^ 124) ≤ mg m (281474976710529 + K) ∧ mg m (281474976710529 + K) ≤ 10 ^ n ∧ 1936274 * K ≤ 6432163 * n ∧
    (n < B64 → 6107016 * n ≤ 1838395 * (K + 1) + 1) := by
  obtain ⟨m, e, rfl, h1, h2, h3, h4, h5⟩ := h
  obtain ⟨K, rfl⟩ : ∃ k, e = 281474976710529 + k := ⟨e - 281474976710529, by omega⟩
  have h6 : (10 : ℚ) ^ n * (1 - n / 2 ^ 124) ≤ mg m (281474976710529 + K) := by
    refine le_trans (mul_le_mul_of_nonneg_left ?_ (by positivity)) h4
    have := one_add_mul_le_pow (a := -ue) (by linarith [ue_lt]) k
    rw [← sub_eq_add_neg] at this
    refine le_trans ?_ this
    have hk' : (k : ℚ) ≤ n := by exact_mod_cast hk
    have : (k : ℚ) * ue ≤ n / 2 ^ 124 := by
      rw [div_eq_mul_one_div]
      refine mul_le_mul hk' (by norm_num [ue]) ue_pos.le (by positivity)
    linarith
  refine ⟨m, K, rfl, h1, h3, h6, h5, ten_up ((two_le_mg h1).trans h5), fun hn => ten_lo hn (h6.trans (mg_lt_two h1).le)⟩

theorem pow10_neg {n : Nat} (h0 : 0 < n) (hn : n ≤ 165492990270) : ∃ m e : Nat, pow10 (-n) = pure (mk' false m e) ∧ Nrm m ∧ Fe e ∧
    ((10 : ℚ) ^ n)⁻¹ ≤ mg m e ∧ mg m e ≤ (10 ^ n)⁻¹ * (1 + (n + 2) / 2 ^ 124) := by
  rcases pow10_ten rfl n with ⟨-, hp⟩ | ⟨r, k, h1, hr, hk, -⟩
  · have := ten_up hp
    omega
  obtain ⟨m', K, rfl, g1, g3, g4, g5, g6, -⟩ := ten_err hr hk
  obtain ⟨e', he'⟩ : ∃ e', e' = 281474976710529 + K := ⟨_, rfl⟩
  rw [← he'] at g3 g4 g5 h1
  have dp : DPair 281474976710529 e' 281474976710529 e' := ⟨⟨one_pair.g₁, Ge.he ⟨by omega, by omega⟩, one_pair.x₁, ⟨by omega, by omega⟩,
    ⟨0, by omega⟩, ⟨0, by omega⟩⟩, by omega, by omega⟩
  obtain ⟨m'', e'', d1, d2, d3, d4, d5⟩ := div_err' (a := false) (b := false) (m₁ := 2 ^ 127) (e₁ := 281474976710529)
    (m₂ := m') (e₂ := e') (c₁ := 281474976710529) (c₂ := e') ⟨by norm_num, by norm_num⟩ g1 dp.toDMod (by omega) (dp.np ⟨by norm_num, by norm_num⟩ g1) rfl
  have hone : mg (2 ^ 127) 281474976710529 = 1 := by simp [mg]; norm_num
  rw [hone] at d4 d5
  have hp := mg_pos (e := e') g1
  have hq : (0 : ℚ) < 10 ^ n := by positivity
  generalize (10 : ℚ) ^ n = q at *
  generalize mg m' e' = p at *
  refine ⟨m'', e'', ?_, d1, d2, ?_, ?_⟩
  · rw [pow10, i64Abs_c (by omega), pure_bind, if_pos (by omega), Int.natAbs_neg, Int.natAbs_natCast, h1, pure_bind,
      show ONE = mk' false (2 ^ 127) 281474976710529 by decide +kernel, d3]
    rfl
  · refine le_trans ?_ d4
    rw [one_div]
    exact inv_anti₀ hp g5
  · refine le_trans d5 ?_
    have hnq : (n : ℚ) ≤ 165492990270 := by exact_mod_cast hn
    have hn0 : (0 : ℚ) ≤ n := by positivity
    have hw : (0 : ℚ) < 1 / 2 ^ 124 := by norm_num
    have hw2 : (165492990270 * 165492990272 : ℚ) * (1 / 2 ^ 124) ≤ 1 := by norm_num
    rw [div_eq_mul_one_div (n : ℚ)] at g4
    rw [div_eq_mul_one_div ((n : ℚ) + 2)]
    generalize (1 : ℚ) / 2 ^ 124 = w at *
    rw [one_div, inv_mul_le_iff₀ hp, ← mul_assoc, mul_comm p, mul_assoc, ← div_eq_inv_mul, le_div_iff₀ hq]
    have hnn : (n : ℚ) * (n + 2) * w ≤ 1 := by
      refine le_trans (mul_le_mul_of_nonneg_right (mul_le_mul hnq (by linarith : (n : ℚ) + 2 ≤ 165492990272) (by linarith) (by norm_num)) hw.le) hw2
    have h5 : (1 + w) ≤ (1 - n * w) * (1 + (n + 2) * w) := by
      have e1 : (1 - n * w) * (1 + (n + 2) * w) = 1 + w + w * (1 - n * (n + 2) * w) := by ring
      rw [e1]
      exact le_add_of_nonneg_right (mul_nonneg hw.le (sub_nonneg.2 hnn))
    calc (1 + w) * q ≤ (1 - n * w) * (1 + (n + 2) * w) * q := mul_le_mul_of_nonneg_right h5 hq.le
      _ = (q * (1 - n * w)) * (1 + (n + 2) * w) := by ring
      _ ≤ p * (1 + (n + 2) * w) := mul_le_mul_of_nonneg_right g4 (by positivity)

/-- large powers of ten panic -/
theorem pow10_overflow {n : Nat} (h : 5552853823702000000 ≤ n) (hn : n < B64) : Panics (pow10_worker n) := by
  rcases pow10_ten rfl n with ⟨h, -⟩ | ⟨r, k, -, hr, hk, -, he⟩
  · exact h
  obtain ⟨m, K, rfl, g1, g3, g4, g5, -, g6⟩ := ten_err hr hk
  have := g6 hn
  rw [mk_exp] at he
  omega

/-- Below `10^(-165492990270)` the exponent of the inverse wraps around and the result is too large. -/
theorem pow10_wrong {n t : Nat} (hl : 165492990271 ≤ n) (hn : n ≤ 281474976710656) (ht : t = 1099511627775) :
    Panics (pow10 (-n)) ∧ ¬(165492990272 ≤ n ∧ n ≤ 496000000000) ∨
    ∃ m e : Nat, pow10 (-n) = pure (mk' false m e) ∧ Nrm m ∧ Fe e ∧ (10 ^ n)⁻¹ * 2 ^ t ≤ mg m e := by
  rcases pow10_ten rfl n with ⟨-, hp⟩ | ⟨r, k, h1, hr, hk, -⟩
  · have := ten_up hp
    omega
  obtain ⟨m', K, rfl, g1, g3, g4, g5, g6, g7⟩ := ten_err hr hk
  replace g7 := g7 (by omega)
  obtain ⟨e', he'⟩ : ∃ e', e' = 281474976710529 + K := ⟨_, rfl⟩
  rw [← he'] at g3 g4 g5 h1
  obtain ⟨e₂, x₂, j, hj⟩ := exists_mod (e := e')
  have hx1 := x₂.1
  have hx2 := x₂.2
  have dm : DMod 281474976710529 e' 281474976710529 e₂ := ⟨one_pair.g₁, ⟨⟨by omega, by omega, by omega⟩, by omega⟩, one_pair.x₁, x₂, ⟨0, by omega⟩, ⟨j, hj⟩⟩
  have hpow : pow10 (-n) = div (mk' false (2 ^ 127) 281474976710529) (mk' false m' e') := by
    rw [pow10, i64Abs_c (by omega), pure_bind, if_pos (by omega), Int.natAbs_neg, Int.natAbs_natCast, h1, pure_bind,
      show ONE = mk' false (2 ^ 127) 281474976710529 by decide +kernel]
  rw [hpow]
  rcases div_all (a := false) (b := false) (m₁ := 2 ^ 127) ⟨by norm_num, by norm_num⟩ g1 dm with ⟨w, w'⟩ |
    ⟨-, n₁, f₁, n₂, f₂, m, e, p, q, w1, w2, -, -, lo, -, r1, r2, r3, r4, r5, r0, -, -, r6, -⟩
  · refine Or.inl ⟨w, fun ⟨c1, c2⟩ => ?_⟩
    obtain rfl : j = 1 := by omega
    omega
  right
  refine ⟨m, e, r0, r1, r2, ?_⟩
  have hone : mg (2 ^ 127) 281474976710529 = 1 := by simp [mg]; norm_num
  obtain ⟨i, hi⟩ : ∃ i : Nat, e' = e₂ + (t + 1 + i) := ⟨e' - e₂ - (t + 1), by omega⟩
  rw [hi, mg_add] at g5
  rw [hone] at lo
  have u3 : mg n₁ f₁ ≤ mg m e := by
    have : 0 < ulp q := by unfold ulp; positivity
    linarith
  have u4 := mg_pos (e := e₂) g1
  have hT : (0 : ℚ) < 10 ^ n := by positivity
  have h2t : (2 : ℚ) ^ (t + 1) ≤ 2 ^ (t + 1 + i) := pow_le_pow_right₀ (by norm_num) (by omega)
  rw [pow_succ] at h2t
  have h2p : (0 : ℚ) < 2 ^ t := by positivity
  generalize (2 : ℚ) ^ (t + 1 + i) = A at *
  generalize (2 : ℚ) ^ t = B at *
  generalize (10 : ℚ) ^ n = q at *
  generalize mg m' e₂ = a at *
  generalize mg m e = b at *
  rw [inv_mul_le_iff₀ hT]
  have hb : 0 < b := by
    by_contra hc
    have : mg n₁ f₁ * a ≤ 0 := mul_nonpos_of_nonpos_of_nonneg (by linarith) u4.le
    linarith
  have u5 : 1 ≤ b * a * 2 := le_trans lo (mul_le_mul_of_nonneg_right (mul_le_mul_of_nonneg_right u3 u4.le) (by norm_num))
  have u6 : a * (B * 2) * b ≤ q * b := mul_le_mul_of_nonneg_right ((mul_le_mul_of_nonneg_left h2t u4.le).trans g5) hb.le
  have u7 := mul_le_mul_of_nonneg_left u5 h2p.le
  linarith

/-- `10^x` up to a relative error of `(|x| + 2) * 2^-124` -/
theorem pow10_c {x : Int} (h0 : x ≠ 0) (hl : -165492990270 ≤ x) (hu : x ≤ 5552853823701000000) : ∃ m e : Nat, pow10 x = pure (mk' false m e) ∧ Nrm m ∧
    140737488355328 ≤ e ∧ e + 281474976710656 < B64 ∧ (10 : ℚ) ^ x * (1 - x.natAbs / 2 ^ 124) ≤ mg m e ∧ mg m e ≤ 10 ^ x * (1 + (x.natAbs + 2) / 2 ^ 124) := by
  rcases lt_or_gt_of_ne h0 with hx | hx
  · obtain ⟨n, rfl⟩ : ∃ n : Nat, x = -n := ⟨x.natAbs, by omega⟩
    rw [Int.natAbs_neg, Int.natAbs_natCast] at *
    obtain ⟨m, e, h1, h2, h3, h4, h5⟩ := pow10_neg (n := n) (by omega) (by omega)
    have f1 := h3.1
    have f2 := h3.2
    rw [zpow_neg, zpow_natCast]
    refine ⟨m, e, h1, h2, by omega, by omega, le_trans (mul_le_of_le_one_right (by positivity) ?_) h4, h5⟩
    have : (0 : ℚ) ≤ n / 2 ^ 124 := by positivity
    linarith
  · obtain ⟨n, rfl⟩ : ∃ n : Nat, x = n := ⟨x.natAbs, by omega⟩
    rw [Int.natAbs_natCast] at *
    rcases pow10_ten rfl n with ⟨-, hp⟩ | ⟨r, k, h1, hr, hk, -⟩
    · have := ten_up hp
      omega
    obtain ⟨m, K, rfl, h2, h3, h5, h6, h7, -⟩ := ten_err hr hk
    rw [zpow_natCast]
    refine ⟨m, _, by rw [pow10_pos, h1], h2, by omega, by omega, h5, le_trans h6 (le_mul_of_one_le_right (by positivity) ?_)⟩
    have : (0 : ℚ) ≤ ((n : ℚ) + 2) / 2 ^ 124 := by positivity
    linarith

/-- the error of a scaled number -/
def scaleErr (x : Int) : ℚ := if x = 0 then 0 else (x.natAbs + 2) / 2 ^ 124

theorem neg_nv {n : Nat} (h0 : n ≠ 0) (b : Bool) : (if b then F192.neg (nv n) else nv n) = mk' b (n * 2 ^ lz128 n) (281474976710656 - lz128 n) ∨ B128 ≤ n := by
  rcases lt_or_ge n B128 with h | h
  · left
    obtain ⟨h1, h2⟩ := lz_bounds h0 h
    rw [nv, if_neg h0]
    cases b
    · rw [if_neg (by decide)]
    · rw [if_pos rfl, neg_mk h2 (nz_exp (by omega))]
      rfl
  · exact Or.inr h

theorem scale_err {v t k p q : ℚ} (hv : 0 < v) (ht : 0 < t) (h0 : 0 ≤ k)
    (h1 : t * (1 - k / 2 ^ 124) ≤ p) (h2 : p ≤ t * (1 + (k + 2) / 2 ^ 124)) (h3 : q ≤ v * p) (h4 : v * p * (1 - 3 / 2 ^ 126) ≤ q) :
    |q - v * t| ≤ v * t * ((k + 2) / 2 ^ 124) := by
  have hw : (0 : ℚ) < 1 / 2 ^ 124 := by norm_num
  have hw2 : (10000000000 : ℚ) * (1 / 2 ^ 124) ≤ 1 := by norm_num
  rw [show (3 : ℚ) / 2 ^ 126 = 3 / 4 * (1 / 2 ^ 124) by norm_num] at h4
  rw [div_eq_mul_one_div k] at h1
  rw [div_eq_mul_one_div (k + 2)] at h2 ⊢
  generalize (1 : ℚ) / 2 ^ 124 = w at *
  have hvt := mul_pos hv ht
  have a1 : v * (t * (1 - k * w)) ≤ v * p := mul_le_mul_of_nonneg_left h1 hv.le
  have a2 : v * p ≤ v * (t * (1 + (k + 2) * w)) := mul_le_mul_of_nonneg_left h2 hv.le
  have hw1 : w < 1 := by
    by_contra hc
    linarith
  have a3 : v * (t * (1 - k * w)) * (1 - 3 / 4 * w) ≤ v * p * (1 - 3 / 4 * w) := mul_le_mul_of_nonneg_right a1 (by linarith)
  have a4 : 0 ≤ v * t * (w * (k * w)) := by positivity
  have a5 : 0 ≤ v * t * w := by positivity
  rw [abs_le]
  constructor <;> nlinarith

theorem finishNumber_c {s : Str} {x x' : Int} (b : Bool) (hs : ∀ c ∈ s, isDigit c = true) (hb : dval (s.take 39) 0 < B128)
    (hx' : x' = x + (s.length - 39 : Nat)) (h48 : -281474976710656 ≤ x) (hl : -165492990270 ≤ x') (hu : x' ≤ 5552853823701000000) :
    (∃ z, finishNumber b s x = pure z ∧ FValid z ∧
      |fval z - sgn b * dval (s.take 39) 0 * 10 ^ x'| ≤ dval (s.take 39) 0 * 10 ^ x' * scaleErr x') ∨
      79228162514264337593543950336 ≤ dval (s.take 39) 0 ∧ Panics (finishNumber b s x) := by
  have hcut : cutExp s.length x = pure x' := by
    rw [cutExp]
    by_cases h : s.length > 39
    · rw [if_pos h, i64_eq (by omega) (by omega), hx', Nat.cast_sub (by omega)]
      rfl
    · rw [if_neg h, hx', Nat.sub_eq_zero_of_le (by omega)]
      simp
  rw [finishNumber, if_neg (by omega), hcut, pure_bind]
  replace hs : ∀ c ∈ s.take 39, isDigit c = true := fun c hc => hs c (List.mem_of_mem_take hc)
  clear hcut h48 hx'
  generalize s.take 39 = s at *
  generalize x' = x at *
  rcases digitLoop_c s 0 hs hb with h | ⟨h1, h2⟩
  swap
  · exact Or.inr ⟨h1, panics_bind h2 _⟩
  left
  rw [← nv_zero, h, pure_bind]
  generalize dval s 0 = v at *
  by_cases h0 : v = 0
  · subst h0
    have : (if b = true then (nv 0).neg else nv 0) = ZERO := by cases b <;> rfl
    rw [this]
    refine ⟨ZERO, ?_, by decide, by rw [fval_zero]; simp⟩
    by_cases hx0 : x = 0
    · rw [if_neg (by omega)]
    · obtain ⟨m, e, p1, -⟩ := pow10_c hx0 hl hu
      rw [if_pos hx0, p1, pure_bind]
      rw [mul, if_pos (by rw [is_zero_eq]; simp)]
  · obtain ⟨l1, l2⟩ := lz_bounds h0 hb
    obtain ⟨v1, v2, v3⟩ := fval_from h0 hb b
    have hg : mg (v * 2 ^ lz128 v) (281474976710656 - lz128 v) = v := by
      rw [fval_mk l2 (nz_exp (by omega))] at v3
      exact mul_left_cancel₀ (sgn_ne b) v3
    rcases neg_nv h0 b with hn | hn
    swap
    · omega
    rw [hn]
    by_cases hx0 : x = 0
    · rw [if_neg (by omega)]
      refine ⟨_, rfl, valid_mk l2 (by omega), ?_⟩
      rw [v3, hx0, scaleErr, if_pos rfl]
      simp
    · obtain ⟨m, e, p1, p2, p3, p4, p5, p6⟩ := pow10_c hx0 hl hu
      rw [if_pos hx0, p1, pure_bind]
      obtain ⟨m', e', g1, g2, g3, g4, g5, g6, g7, g8⟩ := mul_c (a := b) (b := false) l2 p2 (e₁ := 281474976710656 - lz128 v) (e₂ := e)
        (nz_exp (by omega)) (nz_exp (by omega)) (by omega) (by omega)
      refine ⟨_, g6, valid_mk g1 g2, ?_⟩
      rw [fval_mk g1 (nz_exp (by omega)), Bool.bne_false, mul_assoc, ← mul_sub, abs_mul, abs_sgn, one_mul, scaleErr, if_neg hx0]
      rw [hg] at g7 g8
      have hv : (0 : ℚ) < v := by exact_mod_cast Nat.pos_of_ne_zero h0
      have ht : (0 : ℚ) < 10 ^ x := zpow_pos (by norm_num) _
      generalize (10 : ℚ) ^ x = t at *
      generalize mg m e = p at *
      generalize mg m' e' = q at *
      have hk0 : (0 : ℚ) ≤ (x.natAbs : ℚ) := by positivity
      generalize (x.natAbs : ℚ) = k at *
      exact scale_err hv ht hk0 p5 p6 g7 g8

theorem finishNumber_wrong {s : Str} {n t : Nat} (b : Bool) (hs : ∀ c ∈ s, isDigit c = true) (h39 : s.length ≤ 39)
    (hb : dval s 0 < 79228162514264337593543950336) (h0 : dval s 0 ≠ 0) (hl : 165492990271 ≤ n) (hn : n ≤ 281474976710656) (ht : t = 1099511627774) :
    Panics (finishNumber b s (-n)) ∧ ¬(165492990272 ≤ n ∧ n ≤ 496000000000) ∨
    ∃ m e : Nat, finishNumber b s (-n) = pure (mk' b m e) ∧ Nrm m ∧ ¬Z b m e ∧ e < B64 ∧ dval s 0 * (10 ^ n)⁻¹ * 2 ^ t ≤ mg m e := by
  rw [finishNumber, if_neg (by omega), cutExp, if_neg (by omega), pure_bind, List.take_of_length_le h39]
  rcases digitLoop_c s 0 hs (by omega) with h | ⟨h2, -⟩
  swap
  · omega
  rw [← nv_zero, h, pure_bind, if_pos (by omega)]
  generalize dval s 0 = v at *
  obtain ⟨l1, l2⟩ := lz_bounds h0 (by omega)
  obtain ⟨v1, v2, v3⟩ := fval_from h0 (by omega) b
  have hg : mg (v * 2 ^ lz128 v) (281474976710656 - lz128 v) = v := by
    rw [fval_mk l2 (nz_exp (by omega))] at v3
    exact mul_left_cancel₀ (sgn_ne b) v3
  rcases neg_nv h0 b with hn' | hn'
  swap
  · omega
  rw [hn']
  rcases pow10_wrong (t := t + 1) hl hn (by omega) with ⟨h1, h2⟩ | ⟨m, e, p1, p2, p3, p4⟩
  · exact Or.inl ⟨panics_bind h1 _, h2⟩
  right
  have p5 := p3.1
  have p6 := p3.2
  rw [p1, pure_bind]
  obtain ⟨m', e', g1, g2, g3, g4, g5, g6, g7, g8⟩ := mul_c (a := b) (b := false) l2 p2 (e₁ := 281474976710656 - lz128 v) (e₂ := e)
    (nz_exp (by omega)) (nz_exp (by omega)) (by omega) (by omega)
  rw [Bool.bne_false] at g6
  refine ⟨m', e', g6, g1, nz_exp (by omega), g2, le_trans ?_ g8⟩
  rw [hg]
  have hv : (0 : ℚ) < v := by exact_mod_cast Nat.pos_of_ne_zero h0
  rw [pow_succ] at p4
  have hT : (0 : ℚ) < (10 ^ n)⁻¹ * 2 ^ t := by positivity
  rw [← mul_assoc] at p4
  rw [mul_assoc]
  generalize ((10 : ℚ) ^ n)⁻¹ * 2 ^ t = A at *
  generalize mg m e = p at *
  have h2 := mul_le_mul_of_nonneg_left p4 hv.le
  have h3 := mul_pos hv hT
  norm_num
  linarith

theorem finishNumber_overflow {s : Str} {x : Int} (b : Bool) (hs : ∀ c ∈ s, isDigit c = true) (h39 : s.length ≤ 39) (hb : dval s 0 < B128)
    (hl : 5552853823702000000 ≤ x) (hu : x ≤ 9223372036854775807) : Panics (finishNumber b s x) := by
  rw [finishNumber, if_neg (by omega), cutExp, if_neg (by omega), pure_bind, List.take_of_length_le h39]
  rcases digitLoop_c s 0 hs hb with h | ⟨-, h2⟩
  swap
  · exact panics_bind h2 _
  rw [← nv_zero, h, pure_bind, if_pos (by omega)]
  apply panics_bind
  rw [pow10, i64Abs, if_neg (by omega), pure_bind, if_neg (by omega)]
  exact pow10_overflow (n := x.natAbs) (by omega) (by omega)

/-! ### the states of the parser -/

theorem not_digit {c : Char} (h : c = '_' ∨ c = '.' ∨ c = 'e' ∨ c = 'E') : isDigit c = false := by
  rcases h with rfl | rfl | rfl | rfl <;> decide

theorem pLoop_digits : ∀ (t rest : Str) (b : Bool) (ds : Str) (x : Int) (xb : Str), (∀ c ∈ t, isDigit c = true ∨ c = '_') →
    pLoop (t ++ rest) ⟨.readDigit, b, ds, x, xb⟩ = pLoop rest ⟨.readDigit, b, ds ++ t.filter isDigit, x, xb⟩
  | [], rest, b, ds, x, xb, _ => by simp
  | c :: t, rest, b, ds, x, xb, h => by
    rw [List.cons_append, pLoop, pStep]
    rcases h c (List.mem_cons_self ..) with hc | hc
    · simp only [pReadDigit, hc, if_true]
      rw [pLoop_digits t rest _ _ _ _ (fun c hc => h c (List.mem_cons_of_mem _ hc)), List.filter_cons_of_pos hc,
        List.append_assoc, List.singleton_append]
    · have hn := not_digit (Or.inl hc)
      simp only [pReadDigit, hn, Bool.false_eq_true, if_false]
      rw [if_pos hc]
      simp only []
      rw [pLoop_digits t rest _ _ _ _ (fun c hc => h c (List.mem_cons_of_mem _ hc)), List.filter_cons_of_neg (by rw [hn]; decide)]

theorem pLoop_sub : ∀ (t rest : Str) (b : Bool) (ds : Str) (x : Int) (xb : Str), (∀ c ∈ t, isDigit c = true ∨ c = '_') →
    pLoop (t ++ rest) ⟨.readSubZero, b, ds, x, xb⟩ =
      pLoop rest ⟨.readSubZero, b, ds ++ t.filter isDigit, x - (t.filter isDigit).length, xb⟩
  | [], rest, b, ds, x, xb, _ => by simp
  | c :: t, rest, b, ds, x, xb, h => by
    rw [List.cons_append, pLoop, pStep]
    rcases h c (List.mem_cons_self ..) with hc | hc
    · simp only [pReadSubZero, hc, if_true]
      rw [pLoop_sub t rest _ _ _ _ (fun c hc => h c (List.mem_cons_of_mem _ hc)), List.filter_cons_of_pos hc,
        List.append_assoc, List.singleton_append, List.length_cons]
      congr 2
      push_cast
      ring
    · have hn := not_digit (Or.inl hc)
      simp only [pReadSubZero, hn, Bool.false_eq_true, if_false]
      rw [if_pos hc]
      simp only []
      rw [pLoop_sub t rest _ _ _ _ (fun c hc => h c (List.mem_cons_of_mem _ hc)), List.filter_cons_of_neg (by rw [hn]; decide)]

theorem pLoop_exp : ∀ (t : Str) (b : Bool) (ds : Str) (x : Int) (xb : Str),
    pLoop t ⟨.readExp, b, ds, x, xb⟩ = .ok ⟨.readExp, b, ds, x, xb ++ t⟩
  | [], b, ds, x, xb => by simp [pLoop]
  | c :: t, b, ds, x, xb => by
    rw [pLoop, pStep]
    simp only []
    rw [pLoop_exp t, List.append_assoc, List.singleton_append]

/-- the end of a decimal number: the optional exponent -/
theorem pLoop_tail {st : PState} (hst : st = .readDigit ∨ st = .readSubZero ∨ st = .initZero) {ep : Str}
    (he : ep = [] ∨ ∃ c t, ep = c :: t ∧ (c = 'e' ∨ c = 'E')) (b : Bool) (ds : Str) (x : Int) :
    pLoop ep ⟨st, b, ds, x, []⟩ = .ok ⟨if ep = [] then st else .readExp, b, ds, x, ep.tail⟩ := by
  rcases he with rfl | ⟨c, t, rfl, hc⟩
  · rfl
  · rw [if_neg (by simp), List.tail_cons, pLoop]
    have : pStep ⟨st, b, ds, x, []⟩ c = .ok ⟨.readExp, b, ds, x, []⟩ := by
      rcases hst with rfl | rfl | rfl <;> rcases hc with rfl | rfl <;> rfl
    rw [this]
    simp only []
    rw [pLoop_exp, List.nil_append]

/-- fraction and exponent -/
theorem pLoop_frac {st : PState} (hst : st = .readDigit ∨ st = .initZero) {fp ep : Str} (hf : fp = [] ∨ ∃ t, fp = '.' :: t ∧ ∀ c ∈ t, isDigit c = true ∨ c = '_')
    (he : ep = [] ∨ ∃ c t, ep = c :: t ∧ (c = 'e' ∨ c = 'E')) (b : Bool) (ds : Str) :
    ∃ st', (st' = .readDigit ∨ st' = .readSubZero ∨ st' = .readExp ∨ st' = .initZero ∧ fp = [] ∧ ep = [] ∧ st = .initZero) ∧
    pLoop (fp ++ ep) ⟨st, b, ds, 0, []⟩ = .ok ⟨st', b, ds ++ fp.filter isDigit, -(fp.filter isDigit).length, ep.tail⟩ := by
  rcases hf with rfl | ⟨t, rfl, ht⟩
  · refine ⟨if ep = [] then st else .readExp, ?_, ?_⟩
    · split
      · rcases hst with h | h
        · exact Or.inl h
        · exact Or.inr (Or.inr (Or.inr ⟨h, rfl, by assumption, h⟩))
      · exact Or.inr (Or.inr (Or.inl rfl))
    · rw [List.nil_append, pLoop_tail (by rcases hst with h | h <;> simp [h]) he]
      simp
  · refine ⟨if ep = [] then .readSubZero else .readExp, by split <;> simp, ?_⟩
    rw [List.cons_append, pLoop]
    have : pStep ⟨st, b, ds, 0, []⟩ '.' = .ok ⟨.readSubZero, b, ds, 0, []⟩ := by
      rcases hst with rfl | rfl <;> rfl
    rw [this]
    simp only []
    rw [pLoop_sub _ _ _ _ _ _ ht, pLoop_tail (Or.inr (Or.inl rfl)) he, List.filter_cons_of_neg (by decide), zero_sub]

/-- the text of an exponent -/
def IntLit (t : Str) (x : Int) : Prop :=
  ∃ ds : Str, ds ≠ [] ∧ (∀ c ∈ ds, isDigit c = true) ∧ (t = ds ∧ x = dval ds 0 ∨ t = '+' :: ds ∧ x = dval ds 0 ∨ t = '-' :: ds ∧ x = -dval ds 0)

theorem parseI64_c {t : Str} {x : Int} (h : IntLit t x) (hx : x.natAbs ≤ 9223372036854775807) : parseI64 t = some x := by
  obtain ⟨ds, h0, hd, h⟩ := h
  have hp : parseUInt ds = some (dval ds 0) := by rw [parseUInt, if_neg h0, decFold_c _ _ hd]
  rcases h with ⟨rfl, rfl⟩ | ⟨rfl, rfl⟩ | ⟨rfl, rfl⟩
  · have h1 : ∀ u, t ≠ '-' :: u := by
      rintro u rfl
      exact absurd (hd '-' (List.mem_cons_self ..)) (by decide)
    have h2 : ∀ u, t ≠ '+' :: u := by
      rintro u rfl
      exact absurd (hd '+' (List.mem_cons_self ..)) (by decide)
    unfold parseI64
    split
    · exact absurd rfl (h1 _)
    · exact absurd rfl (h2 _)
    · rw [hp]
      simp only []
      rw [if_pos (by omega)]
  · simp only [parseI64, hp]
    rw [if_pos (by omega)]
  · simp only [parseI64, hp]
    rw [if_pos (by omega)]

/-- sign and integer part -/
theorem pLoop_int {ip : Str} (h : ip = ['0'] ∨ ∃ c t, ip = c :: t ∧ isDigit c = true ∧ c ≠ '0' ∧ ∀ c ∈ t, isDigit c = true ∨ c = '_')
    (b : Bool) (rest : Str) : ∃ st ds, pLoop ((if b then ['-'] else []) ++ ip ++ rest) ⟨.init, false, [], 0, []⟩ = pLoop rest ⟨st, b, ds, 0, []⟩ ∧
      (st = .readDigit ∧ ds = ip.filter isDigit ∧ ip ≠ ['0'] ∨ st = .initZero ∧ ds = [] ∧ ip = ['0']) := by
  have h1 : pLoop ((if b then ['-'] else []) ++ ip ++ rest) ⟨.init, false, [], 0, []⟩ = pLoop (ip ++ rest) ⟨.init, b, [], 0, []⟩ := by
    cases b <;> rfl
  rw [h1]
  rcases h with rfl | ⟨c, t, rfl, hc, hc0, ht⟩
  · exact ⟨.initZero, [], rfl, Or.inr ⟨rfl, rfl, rfl⟩⟩
  · refine ⟨.readDigit, (c :: t).filter isDigit, ?_, Or.inl ⟨rfl, rfl, fun h => hc0 (List.cons.inj h).1⟩⟩
    have hm : c ≠ '-' := by rintro rfl; exact absurd hc (by decide)
    rw [List.cons_append, pLoop, pStep]
    simp only [pInit]
    rw [if_neg hm, if_neg hc0, if_pos hc]
    simp only []
    rw [pLoop_digits _ _ _ _ _ _ ht, List.filter_cons_of_pos hc, List.nil_append, List.singleton_append]

/-- the digits of a decimal number: a leading zero is left out -/
def sigDigits (ip fp : Str) : Str := (if ip = ['0'] then [] else ip.filter isDigit) ++ fp.filter isDigit

theorem from_str_dec {ip fp ep : Str} {x : Int} (b : Bool)
    (hi : ip = ['0'] ∨ ∃ c t, ip = c :: t ∧ isDigit c = true ∧ c ≠ '0' ∧ ∀ c ∈ t, isDigit c = true ∨ c = '_')
    (hf : fp = [] ∨ ∃ t, fp = '.' :: t ∧ ∀ c ∈ t, isDigit c = true ∨ c = '_')
    (he : ep = [] ∧ x = 0 ∨ ∃ c t, ep = c :: t ∧ (c = 'e' ∨ c = 'E') ∧ IntLit t x)
    {y : Int} (hy : y = x - (fp.filter isDigit).length) (hl : -9223372036854775808 ≤ y) (hu : x.natAbs ≤ 9223372036854775807) :
    from_str ((if b then ['-'] else []) ++ ip ++ (fp ++ ep)) = (do let r ← finishNumber b (sigDigits ip fp) y; pure (.ok r)) ∨
      sigDigits ip fp = [] ∧ from_str ((if b then ['-'] else []) ++ ip ++ (fp ++ ep)) = pure (.ok ZERO) := by
  obtain ⟨st, ds, h1, h2⟩ := pLoop_int hi b (fp ++ ep)
  obtain ⟨st', h3, h4⟩ := pLoop_frac (st := st) (by rcases h2 with h | h <;> simp [h.1]) hf (ep := ep) (by
    rcases he with h | ⟨c, t, h, h', -⟩
    · exact Or.inl h.1
    · exact Or.inr ⟨c, t, h, h'⟩) b ds
  rw [from_str, h1, h4]
  have hds : ds ++ fp.filter isDigit = sigDigits ip fp := by
    rw [sigDigits]
    rcases h2 with ⟨-, h, h'⟩ | ⟨-, rfl, rfl⟩
    · rw [if_neg h', h]
    · rw [if_pos rfl]
  rw [hds]
  generalize hg : sigDigits ip fp = gs at *
  generalize hF : (fp.filter isDigit).length = F at *
  have fin : st' ≠ .initZero → finishDec ⟨st', b, gs, -F, ep.tail⟩ = (do let r ← finishNumber b gs y; pure (.ok r)) ∨
      gs = [] ∧ finishDec ⟨st', b, gs, -F, ep.tail⟩ = pure (.ok ZERO) := by
    intro _
    rw [finishDec]
    rcases he with ⟨rfl, rfl⟩ | ⟨c, t, rfl, -, ht⟩
    · left
      rw [if_neg (by simp), hy, zero_sub]
    · have ht' := ht
      obtain ⟨d, d0, -, d1⟩ := ht'
      have hne : t ≠ [] := by
        rcases d1 with ⟨h, -⟩ | ⟨h, -⟩ | ⟨h, -⟩ <;> rw [h] <;> simp [d0]
      rw [List.tail_cons, if_pos hne]
      simp only []
      rw [parseI64_c ht hu]
      simp only []
      rw [i64_eq (by omega) (by omega), pure_bind]
      by_cases hg0 : gs = []
      · right
        exact ⟨hg0, by rw [if_pos hg0]⟩
      · left
        rw [if_neg hg0, hy, sub_eq_add_neg, add_comm]
  rcases h3 with rfl | rfl | rfl | ⟨rfl, rfl, rfl, h⟩
  pick_goal 4
  · right
    refine ⟨?_, rfl⟩
    rcases h2 with ⟨h', -⟩ | ⟨-, h', -⟩
    · rw [h'] at h; exact absurd h (by decide)
    · rw [← hds, h']; rfl
  all_goals exact fin (by decide)

/-! ### other bases -/

/-- `r` is at most `k * 2^-124` (relatively) below `V` -/
def Appr (r : F192) (V k : Nat) : Prop := FValid r ∧ fval r ≤ V ∧ V * (1 - k / 2 ^ 124) ≤ fval r

theorem appr_nv {n : Nat} (h : n < B128) : Appr (nv n) n 0 := by
  refine ⟨valid_nv h, by rw [fval_nv h], by rw [fval_nv h]; simp⟩

theorem exp_of_fval {m e k : Nat} (hm : Nrm m) (h1 : 1 / 2 ≤ mg m e) (h2 : mg m e < 2 ^ k) :
    281474976710656 < e + 130 ∧ e < 281474976710656 + k := by
  obtain ⟨m1, m2⟩ := hm
  constructor
  · by_contra hc
    have hu : ulp e ≤ 2 ^ (-130 : ℤ) := by
      unfold ulp
      exact zpow_le_zpow_right₀ (by norm_num) (by norm_num; omega)
    have hm' : (m : ℚ) ≤ 340282366920938463463374607431768211456 := by exact_mod_cast m2.le
    have h3 : mg m e ≤ 340282366920938463463374607431768211456 * 2 ^ (-130 : ℤ) := by
      rw [mg_eq]
      exact mul_le_mul hm' hu (ulp_pos e).le (by norm_num)
    norm_num at h3 h1
    linarith
  · by_contra hc
    have hu : (2 : ℚ) ^ (k : ℤ) ≤ ulp e := by
      unfold ulp
      exact zpow_le_zpow_right₀ (by norm_num) (by norm_num; omega)
    rw [zpow_natCast] at hu
    have hm' : (1 : ℚ) ≤ m := by
      have : 1 ≤ m := by omega
      exact_mod_cast this
    rw [mg_eq] at h2
    have : ulp e ≤ m * ulp e := le_mul_of_one_le_left (ulp_pos e).le hm'
    linarith

theorem push_err {V E c k v r1 r2 : ℚ} (hV : 0 < V) (hE : 0 < E) (hc : 0 ≤ c) (hk : 0 ≤ k)
    (h1 : v ≤ V) (h2 : V * (1 - k / 2 ^ 124) ≤ v)
    (h3 : r1 ≤ v * E) (h4 : v * E * (1 - 3 / 2 ^ 126) ≤ r1) (h5 : r2 ≤ r1 + c) (h6 : r1 + c - r2 ≤ 1 / 2 ^ 127 * (r1 + c)) :
    r2 ≤ V * E + c ∧ (V * E + c) * (1 - (k + 1) / 2 ^ 124) ≤ r2 := by
  have hw : (0 : ℚ) < 1 / 2 ^ 124 := by norm_num
  have hw1 : (1 : ℚ) / 2 ^ 124 ≤ 1 / 16 := by norm_num
  rw [show (3 : ℚ) / 2 ^ 126 = 3 / 4 * (1 / 2 ^ 124) by norm_num] at h4
  rw [show (1 : ℚ) / 2 ^ 127 = 1 / 8 * (1 / 2 ^ 124) by norm_num] at h6
  rw [div_eq_mul_one_div k] at h2
  rw [div_eq_mul_one_div (k + 1)]
  generalize (1 : ℚ) / 2 ^ 124 = w at *
  have hvE : v * E ≤ V * E := mul_le_mul_of_nonneg_right h1 hE.le
  have hvE' : V * (1 - k * w) * E ≤ v * E := mul_le_mul_of_nonneg_right h2 hE.le
  have hVE : 0 < V * E := mul_pos hV hE
  refine ⟨by linarith, ?_⟩
  have a1 : V * (1 - k * w) * E * (1 - 3 / 4 * w) ≤ v * E * (1 - 3 / 4 * w) := mul_le_mul_of_nonneg_right hvE' (by linarith)
  have a2 : V * E * (1 - (k + 3 / 4) * w) ≤ r1 := by
    have : 0 ≤ V * E * (k * w * w) := by positivity
    nlinarith
  have a3 : (r1 + c) * (1 - 1 / 8 * w) ≤ r2 := by linarith
  have a4 : (V * E * (1 - (k + 3 / 4) * w) + c) * (1 - 1 / 8 * w) ≤ (r1 + c) * (1 - 1 / 8 * w) :=
    mul_le_mul_of_nonneg_right (by linarith) (by linarith)
  have a5 : 0 ≤ V * E * ((k + 3 / 4) * w * w) := by positivity
  have a6 : 0 ≤ c * (k * w) := by positivity
  have a7 : 0 ≤ V * E * w := by positivity
  have a8 : 0 ≤ c * w := by positivity
  nlinarith

theorem pushChunk_c {r : F192} {V k E c J : Nat} (hr : Appr r V k) (hV : V < 2 ^ J) (hJ : J ≤ 35184372088832) (hk : k ≤ J)
    (hE : E ≤ 1152921504606846976) (hE0 : 0 < E) (hc : c < E) :
    ∃ r', pushChunk r E c = pure r' ∧ Appr r' (V * E + c) (if V = 0 then 0 else k + 1) := by
  obtain ⟨r1, r2, r3⟩ := hr
  rw [pushChunk, from_nv (by omega), pure_bind]
  by_cases hV0 : V = 0
  · subst hV0
    have hz : fval r = 0 := by
      simp only [Nat.cast_zero, zero_mul] at r2 r3
      exact le_antisymm r2 r3
    obtain rfl := (fval_eq_zero r1).1 hz
    have : mul ZERO (nv E) = pure ZERO := by rw [mul, is_zero_eq, if_pos (by simp)]
    rw [this, pure_bind, from_nv (by omega), pure_bind, ← nv_zero, add_nv (by omega), if_pos rfl, Nat.zero_mul]
    exact ⟨_, rfl, appr_nv (by omega)⟩
  · rw [if_neg hV0]
    have hV1 : (1 : ℚ) ≤ V := by exact_mod_cast Nat.one_le_iff_ne_zero.2 hV0
    have hkq : (k : ℚ) ≤ 35184372088832 := by
      have : k ≤ 35184372088832 := by omega
      exact_mod_cast this
    have hk0 : (0 : ℚ) ≤ k := by positivity
    have hkw : (k : ℚ) / 2 ^ 124 ≤ 1 / 2 := by
      rw [div_le_iff₀ (by norm_num)]
      refine le_trans hkq (by norm_num)
    have hhalf : 1 / 2 ≤ fval r := by
      refine le_trans ?_ r3
      generalize (k : ℚ) / 2 ^ 124 = t at hkw
      nlinarith
    obtain ⟨s, m, e, hm, he, hz, rfl, hv⟩ := mk_of_not_zero r1 (by linarith)
    have hp := mg_pos (e := e) hm
    obtain rfl : s = false := by
      cases s
      · rfl
      · rw [hv, sgn_true] at hhalf; exact absurd hhalf (not_le.2 (by rw [neg_one_mul]; exact lt_trans (neg_lt_zero.2 hp) (by norm_num)))
    rw [hv, sgn_false, one_mul] at hhalf r2 r3
    obtain ⟨x1, x2⟩ := exp_of_fval hm hhalf (k := J) (lt_of_le_of_lt r2 (by exact_mod_cast hV))
    have hEb : E < B128 := by omega
    obtain ⟨l1, l2⟩ := lz_bounds (by omega : E ≠ 0) hEb
    have hnE : nv E = mk' false (E * 2 ^ lz128 E) (281474976710656 - lz128 E) := by rw [nv, if_neg (by omega)]
    have hgE : mg (E * 2 ^ lz128 E) (281474976710656 - lz128 E) = E := by
      have := fval_nv hEb
      rwa [hnE, fval_mk l2 (nz_exp (by omega)), sgn_false, one_mul] at this
    obtain ⟨m', e', g1, g2, g3, g4, g5, g6, g7, g8⟩ := mul_c (a := false) (b := false) hm l2 (e₁ := e) (e₂ := 281474976710656 - lz128 E)
        hz (nz_exp (by omega)) (by omega) (by omega)
    rw [hnE, g6, pure_bind, from_nv (by omega), pure_bind, Bool.bne_false]
    rw [hgE] at g7 g8
    have hv' : fval (mk' false m' e') = mg m' e' := by rw [fval_mk g1 (nz_exp g3), sgn_false, one_mul]
    have hp' := mg_pos (e := e') g1
    have hcb : c < B128 := by omega
    obtain ⟨z, z1, z2, z3⟩ := C41_add_same (x := mk' false m' e') (valid_mk g1 g2) (valid_nv hcb)
      (by rw [hv', fval_nv hcb]; exact mul_nonneg hp'.le (Nat.cast_nonneg c)) (by rw [mk_exp]; omega) (by
        by_cases h0 : c = 0
        · rw [h0]; decide
        · have := (nv_exp h0 hcb).2; omega) (by
        intro hc
        have := congrArg F192.exp hc
        rw [mk_exp] at this
        have h0 : negTiny.exp = 0 := rfl
        omega) (nv_ne_tiny hcb)
    rw [hv', fval_nv hcb] at z2 z3
    have hsum : 0 < mg m' e' + (c : ℚ) := add_pos_of_pos_of_nonneg hp' (Nat.cast_nonneg c)
    have hsign := z2.2.1
    rw [sign_pos hsum, sign_eq_one_iff] at hsign
    have hle := z2.2.2.1
    rw [abs_of_pos hsum, abs_of_pos hsign] at hle
    have herr := z3.2.2
    rw [abs_of_pos hsum, abs_sub_comm, abs_of_nonneg (by linarith)] at herr
    obtain ⟨q1, q2⟩ := push_err (by linarith) (by exact_mod_cast hE0 : (0 : ℚ) < E) (Nat.cast_nonneg c) hk0 r2 r3 g7 g8 hle herr
    exact ⟨z, z1, z2.1, by push_cast; exact q1, by push_cast; exact q2⟩

/-- the value of digits of a base in front of which `a` was read -/
def bval (b : Nat) : List Nat → Nat → Nat
  | [], a => a
  | d :: ds, a => bval b ds (a * b + d)

/-- one step further: either the chunk grows or it is added -/
theorem baseLoop_c {b : Nat} (hb : 2 ≤ b) (hb' : b ≤ 16) : ∀ (ds : List Nat) (l curr J V k : Nat) (r : F192), (∀ d ∈ ds, d < b) →
    Appr r V k → V < 2 ^ (4 * J) → (J = 0 ∧ V = 0 ∧ k = 0 ∨ 15 * k + 15 ≤ J) → b ^ l ≤ 72057594037927936 → curr < b ^ l →
    J + l + ds.length ≤ 1000000000000 →
    ∃ l' curr' J' V' k' r', baseLoop b (ds.map fun d => Char.ofNat (d + 32)) curr (b ^ l) r = pure (curr', b ^ l', r') ∧
      Appr r' V' k' ∧ V' < 2 ^ (4 * J') ∧ (J' = 0 ∧ V' = 0 ∧ k' = 0 ∨ 15 * k' + 15 ≤ J') ∧ b ^ l' ≤ 72057594037927936 ∧ curr' < b ^ l' ∧
      J' + l' = J + l + ds.length ∧ V' * b ^ l' + curr' = bval b ds (V * b ^ l + curr)
  | [], l, curr, J, V, k, r, _, h1, h2, h3, h4, h5, _ =>
    ⟨l, curr, J, V, k, r, rfl, h1, h2, h3, h4, h5, rfl, rfl⟩
  | d :: ds, l, curr, J, V, k, r, hd, h1, h2, h3, h4, h5, h6 => by
    have hd0 := hd d (List.mem_cons_self ..)
    have hds := fun c hc => hd c (List.mem_cons_of_mem _ hc)
    rw [List.length_cons] at h6 ⊢
    have hchar : (Char.ofNat (d + 32)).toNat = d + 32 := by
      have : ∀ d < 16, (Char.ofNat (d + 32)).toNat = d + 32 := by decide
      exact this d (by omega)
    have p1 : b ^ l * b ≤ 72057594037927936 * 16 := Nat.mul_le_mul h4 hb'
    have p2 : curr * b + d < b ^ l * b := by
      have : (curr + 1) * b ≤ b ^ l * b := Nat.mul_le_mul_right _ (by omega)
      rw [Nat.add_mul] at this
      omega
    have hval : V * b ^ (l + 1) + (curr * b + d) = (V * b ^ l + curr) * b + d := by rw [pow_succ]; ring
    rw [List.map_cons, baseLoop, hchar, uSub_eq (by omega), pure_bind, u64Mul, uMul_eq (by omega), pure_bind, uMul_eq (by omega), pure_bind,
      u64Add, uAdd_eq (by omega), pure_bind, Nat.add_sub_cancel]
    by_cases hc : b ^ l * b > 72057594037927936
    · rw [if_pos hc]
      have hl : 14 ≤ l := by
        by_contra hl
        have q1 : b ^ (l + 1) ≤ 16 ^ (l + 1) := Nat.pow_le_pow_left hb' _
        have q2 : 16 ^ (l + 1) ≤ 16 ^ 14 := Nat.pow_le_pow_right (by norm_num) (by omega)
        rw [pow_succ] at q1
        have : (16 : Nat) ^ 14 = 72057594037927936 := by norm_num
        omega
      obtain ⟨r', q1, q2⟩ := pushChunk_c (J := 4 * J) h1 h2 (by omega) (by omega) (E := b ^ l * b) (c := curr * b + d) (by omega) (by omega) p2
      rw [q1, pure_bind]
      obtain ⟨l', curr', J', V', k', r'', t1, t2, t3, t4, t5, t6, t7, t8⟩ := baseLoop_c hb hb' ds 0 0 (J + (l + 1)) _ _ r' hds q2 (by
        have e1 : b ^ l * b = b ^ (l + 1) := (pow_succ _ _).symm
        have e2 : b ^ (l + 1) ≤ 2 ^ (4 * (l + 1)) := by
          rw [pow_mul]; exact Nat.pow_le_pow_left (by omega) _
        rw [e1] at p2 ⊢
        rw [Nat.mul_add, pow_add (2 : Nat)]
        have e3 : (V + 1) * b ^ (l + 1) ≤ 2 ^ (4 * J) * 2 ^ (4 * (l + 1)) := Nat.mul_le_mul (by omega) e2
        rw [Nat.add_mul, Nat.one_mul] at e3
        omega) (by
        right
        split
        · omega
        · omega) (by norm_num) (by norm_num) (by omega)
      refine ⟨l', curr', J', V', k', r'', t1, t2, t3, t4, t5, t6, by omega, ?_⟩
      rw [t8, bval, ← hval, pow_succ]
      simp
    · rw [if_neg hc, ← pow_succ]
      obtain ⟨l', curr', J', V', k', r'', t1, t2, t3, t4, t5, t6, t7, t8⟩ := baseLoop_c hb hb' ds (l + 1) (curr * b + d) J V k r hds h1 h2 h3
        (by rw [pow_succ]; omega) (by rw [pow_succ]; exact p2) (by omega)
      refine ⟨l', curr', J', V', k', r'', t1, t2, t3, t4, t5, t6, by omega, ?_⟩
      rw [t8, bval, ← hval]

theorem finishBase_c {b : Nat} (hb : 2 ≤ b) (hb' : b ≤ 16) {ds : List Nat} (hd : ∀ d ∈ ds, d < b) (hl : ds.length ≤ 1000000000000) :
    ∃ r k, finishBase b (ds.map fun d => Char.ofNat (d + 32)) = pure r ∧ Appr r (bval b ds 0) k ∧ 15 * k ≤ ds.length - 1 := by
  have h0 : Appr ZERO 0 0 := ⟨by decide, by rw [fval_zero]; simp, by rw [fval_zero]; simp⟩
  obtain ⟨l, curr, J, V, k, r, t1, t2, t3, t4, t5, t6, t7, t8⟩ := baseLoop_c hb hb' ds 0 0 0 0 0 ZERO hd h0 (by norm_num)
    (Or.inl ⟨rfl, rfl, rfl⟩) (by norm_num) (by norm_num) (by omega)
  rw [pow_zero] at t1
  rw [finishBase, t1, pure_bind]
  simp only [Nat.zero_mul, Nat.zero_add] at t7 t8
  by_cases hl0 : b ^ l > 1
  · simp only [hl0, if_true]
    have hl1 : l ≠ 0 := by rintro rfl; simp at hl0
    obtain ⟨r', q1, q2⟩ := pushChunk_c (J := 4 * J) t2 t3 (by omega) (by omega) (E := b ^ l) (c := curr) (by omega) (by omega) t6
    refine ⟨r', if V = 0 then 0 else k + 1, q1, ?_, ?_⟩
    · rwa [t8] at q2
    · split
      · omega
      · omega
  · simp only [hl0, if_false]
    have hl1 : l = 0 := by
      by_contra hc
      exact hl0 (Nat.one_lt_pow hc (by omega))
    subst hl1
    rw [pow_zero] at t6 t8
    have hc0 : curr = 0 := by omega
    rw [hc0] at t8
    refine ⟨r, k, rfl, ?_, ?_⟩
    · rwa [← t8, Nat.mul_one, Nat.add_zero]
    · omega

theorem toDigit_lt {b d : Nat} {c : Char} (h : toDigit b c = some d) : d < b := by
  unfold toDigit at h
  simp only [] at h
  generalize (if 48 ≤ c.toNat ∧ c.toNat ≤ 57 then c.toNat - 48 else if 97 ≤ c.toNat ∧ c.toNat ≤ 122 then c.toNat - 87
    else if 65 ≤ c.toNat ∧ c.toNat ≤ 90 then c.toNat - 55 else b) = v at h
  split_ifs at h with hv
  rw [← Option.some.inj h]
  exact hv

theorem pLoop_base {b : Nat} : ∀ (t : Str) (g : Bool) (ds : Str) (x : Int) (xb : Str), (∀ c ∈ t, c = '_' ∨ ∃ d, toDigit b c = some d) →
    pLoop t ⟨.readBase b, g, ds, x, xb⟩ = .ok ⟨.readBase b, g, ds ++ (t.filterMap (toDigit b)).map fun d => Char.ofNat (d + 32), x, xb⟩
  | [], g, ds, x, xb, _ => by simp [pLoop]
  | c :: t, g, ds, x, xb, h => by
    have ht := fun c hc => h c (List.mem_cons_of_mem _ hc)
    rw [pLoop, pStep]
    simp only [pReadBase]
    cases hc : toDigit b c with
    | some d =>
      simp only []
      rw [pLoop_base t _ _ _ _ ht, List.filterMap_cons_some hc, List.map_cons, List.append_assoc, List.singleton_append]
    | none =>
      rcases h c (List.mem_cons_self ..) with h' | ⟨d, h'⟩
      · simp only [h', if_true]
        rw [pLoop_base t _ _ _ _ ht, ← h', List.filterMap_cons_none hc]
      · rw [h'] at hc; exact absurd hc (by simp)

/-- the letter of a base -/
def BaseChar (c : Char) (b : Nat) : Prop := (c = 'x' ∨ c = 'X') ∧ b = 16 ∨ (c = 'o' ∨ c = 'O') ∧ b = 8 ∨ (c = 'b' ∨ c = 'B') ∧ b = 2

theorem from_str_base {c : Char} {b : Nat} {t : Str} (g : Bool) (hc : BaseChar c b) (ht : ∀ c ∈ t, c = '_' ∨ ∃ d, toDigit b c = some d)
    (hl : (t.filterMap (toDigit b)).length ≤ 1000000000000) :
    ∃ r k, from_str ((if g then ['-'] else []) ++ '0' :: c :: t) = pure (.ok r) ∧ Appr r (bval b (t.filterMap (toDigit b)) 0) k ∧
      15 * k ≤ (t.filterMap (toDigit b)).length - 1 := by
  have h1 : pLoop ((if g then ['-'] else []) ++ '0' :: c :: t) ⟨.init, false, [], 0, []⟩ = pLoop (c :: t) ⟨.initZero, g, [], 0, []⟩ := by
    cases g <;> rfl
  have h2 : pLoop (c :: t) ⟨.initZero, g, [], 0, []⟩ = pLoop t ⟨.readBase b, g, [], 0, []⟩ := by
    rcases hc with ⟨rfl | rfl, rfl⟩ | ⟨rfl | rfl, rfl⟩ | ⟨rfl | rfl, rfl⟩ <;> rfl
  have hb : 2 ≤ b ∧ b ≤ 16 := by
    rcases hc with ⟨-, rfl⟩ | ⟨-, rfl⟩ | ⟨-, rfl⟩ <;> norm_num
  obtain ⟨r, k, q1, q2, q3⟩ := finishBase_c hb.1 hb.2 (ds := t.filterMap (toDigit b)) (by
    intro d hd
    obtain ⟨c, -, h⟩ := List.mem_filterMap.1 hd
    exact toDigit_lt h) hl
  refine ⟨r, k, ?_, q2, q3⟩
  rw [from_str, h1, h2, pLoop_base t _ _ _ _ ht, List.nil_append]
  simp only []
  rw [q1, pure_bind]

/-! ### which strings are accepted -/

theorem accept_base {b : Nat} : ∀ (t : Str) (g : Bool) (ds : Str) (x : Int) (xb : Str) (p : PSt), pLoop t ⟨.readBase b, g, ds, x, xb⟩ = .ok p →
    ∀ c ∈ t, c = '_' ∨ ∃ d, toDigit b c = some d
  | [], _, _, _, _, _, _ => by simp
  | c :: t, g, ds, x, xb, p, h => by
    rw [pLoop, pStep] at h
    simp only [pReadBase] at h
    cases hc : toDigit b c with
    | some d =>
      rw [hc] at h
      simp only [] at h
      have := accept_base t _ _ _ _ p h
      intro c' hc'
      rcases List.mem_cons.1 hc' with rfl | hc'
      · exact Or.inr ⟨d, hc⟩
      · exact this c' hc'
    | none =>
      rw [hc] at h
      simp only [] at h
      split at h
      · rename_i s' h'
        split_ifs at h' with hu
        obtain rfl := Except.ok.inj h'
        have := accept_base t _ _ _ _ p h
        intro c' hc'
        rcases List.mem_cons.1 hc' with rfl | hc'
        · exact Or.inl hu
        · exact this c' hc'
      · exact absurd h (by simp)

/-- a run of digits and underscores, then the exponent -/
theorem accept_sub : ∀ (t : Str) (g : Bool) (ds : Str) (x : Int) (xb : Str) (p : PSt), pLoop t ⟨.readSubZero, g, ds, x, xb⟩ = .ok p →
    ∃ u ep, t = u ++ ep ∧ (∀ c ∈ u, isDigit c = true ∨ c = '_') ∧ (ep = [] ∨ ∃ c v, ep = c :: v ∧ (c = 'e' ∨ c = 'E'))
  | [], _, _, _, _, _, _ => ⟨[], [], rfl, by simp, Or.inl rfl⟩
  | c :: t, g, ds, x, xb, p, h => by
    rw [pLoop, pStep] at h
    simp only [pReadSubZero] at h
    by_cases hd : isDigit c = true
    · simp only [hd, if_true] at h
      obtain ⟨u, ep, rfl, h2, h3⟩ := accept_sub t _ _ _ _ p h
      refine ⟨c :: u, ep, rfl, ?_, h3⟩
      intro c' hc'
      rcases List.mem_cons.1 hc' with rfl | hc'
      · exact Or.inl hd
      · exact h2 c' hc'
    · rw [if_neg hd] at h
      by_cases hu : c = '_'
      · simp only [if_pos hu] at h
        obtain ⟨u, ep, rfl, h2, h3⟩ := accept_sub t _ _ _ _ p h
        refine ⟨c :: u, ep, rfl, ?_, h3⟩
        intro c' hc'
        rcases List.mem_cons.1 hc' with rfl | hc'
        · exact Or.inr hu
        · exact h2 c' hc'
      · rw [if_neg hu] at h
        by_cases he : c = 'e' ∨ c = 'E'
        · exact ⟨[], c :: t, rfl, by simp, Or.inr ⟨c, t, rfl, he⟩⟩
        · rw [if_neg he] at h
          exact absurd h (by simp)

theorem accept_digit : ∀ (t : Str) (g : Bool) (ds : Str) (x : Int) (xb : Str) (p : PSt), pLoop t ⟨.readDigit, g, ds, x, xb⟩ = .ok p →
    ∃ u fp ep, t = u ++ (fp ++ ep) ∧ (∀ c ∈ u, isDigit c = true ∨ c = '_') ∧ (fp = [] ∨ ∃ t, fp = '.' :: t ∧ ∀ c ∈ t, isDigit c = true ∨ c = '_') ∧
      (ep = [] ∨ ∃ c v, ep = c :: v ∧ (c = 'e' ∨ c = 'E'))
  | [], _, _, _, _, _, _ => ⟨[], [], [], rfl, by simp, Or.inl rfl, Or.inl rfl⟩
  | c :: t, g, ds, x, xb, p, h => by
    rw [pLoop, pStep] at h
    simp only [pReadDigit] at h
    by_cases hd : isDigit c = true
    · simp only [hd, if_true] at h
      obtain ⟨u, fp, ep, rfl, h2, h3⟩ := accept_digit t _ _ _ _ p h
      refine ⟨c :: u, fp, ep, rfl, ?_, h3⟩
      intro c' hc'
      rcases List.mem_cons.1 hc' with rfl | hc'
      · exact Or.inl hd
      · exact h2 c' hc'
    · rw [if_neg hd] at h
      by_cases hu : c = '_'
      · simp only [if_pos hu] at h
        obtain ⟨u, fp, ep, rfl, h2, h3⟩ := accept_digit t _ _ _ _ p h
        refine ⟨c :: u, fp, ep, rfl, ?_, h3⟩
        intro c' hc'
        rcases List.mem_cons.1 hc' with rfl | hc'
        · exact Or.inr hu
        · exact h2 c' hc'
      · rw [if_neg hu] at h
        by_cases hp : c = '.'
        · subst hp
          simp only [if_true] at h
          obtain ⟨u, ep, rfl, h2, h3⟩ := accept_sub t _ _ _ _ p h
          exact ⟨[], '.' :: u, ep, rfl, by simp, Or.inr ⟨u, rfl, h2⟩, h3⟩
        · rw [if_neg hp] at h
          by_cases he : c = 'e' ∨ c = 'E'
          · exact ⟨[], [], c :: t, rfl, by simp, Or.inl rfl, Or.inr ⟨c, t, rfl, he⟩⟩
          · rw [if_neg he] at h
            exact absurd h (by simp)

theorem accept_zero {t : Str} {g : Bool} {p : PSt} (h : pLoop t ⟨.initZero, g, [], 0, []⟩ = .ok p) :
    (∃ c b u, t = c :: u ∧ BaseChar c b ∧ ∀ c ∈ u, c = '_' ∨ ∃ d, toDigit b c = some d) ∨
    ∃ fp ep, t = fp ++ ep ∧ (fp = [] ∨ ∃ t, fp = '.' :: t ∧ ∀ c ∈ t, isDigit c = true ∨ c = '_') ∧
      (ep = [] ∨ ∃ c v, ep = c :: v ∧ (c = 'e' ∨ c = 'E')) := by
  match t with
  | [] => exact Or.inr ⟨[], [], rfl, Or.inl rfl, Or.inl rfl⟩
  | c :: t =>
    rw [pLoop, pStep] at h
    simp only [pInitZero] at h
    by_cases h1 : c = 'x' ∨ c = 'X'
    · simp only [if_pos h1] at h
      exact Or.inl ⟨c, 16, t, rfl, Or.inl ⟨h1, rfl⟩, accept_base t _ _ _ _ p h⟩
    rw [if_neg h1] at h
    by_cases h2 : c = 'o' ∨ c = 'O'
    · simp only [if_pos h2] at h
      exact Or.inl ⟨c, 8, t, rfl, Or.inr (Or.inl ⟨h2, rfl⟩), accept_base t _ _ _ _ p h⟩
    rw [if_neg h2] at h
    by_cases h3 : c = 'b' ∨ c = 'B'
    · simp only [if_pos h3] at h
      exact Or.inl ⟨c, 2, t, rfl, Or.inr (Or.inr ⟨h3, rfl⟩), accept_base t _ _ _ _ p h⟩
    rw [if_neg h3] at h
    right
    by_cases h4 : c = 'e' ∨ c = 'E'
    · exact ⟨[], c :: t, rfl, Or.inl rfl, Or.inr ⟨c, t, rfl, h4⟩⟩
    rw [if_neg h4] at h
    by_cases h5 : c = '.'
    · subst h5
      simp only [if_true] at h
      obtain ⟨u, ep, rfl, q1, q2⟩ := accept_sub t _ _ _ _ p h
      exact ⟨'.' :: u, ep, rfl, Or.inr ⟨u, rfl, q1⟩, q2⟩
    rw [if_neg h5] at h
    exact absurd h (by simp)

theorem accept_sign {t : Str} {g : Bool} {p : PSt} (h : pLoop t ⟨.init, g, [], 0, []⟩ = .ok p) :
    p.st = .init ∨ (g = false ∧ ∃ u, t = '-' :: u ∧ pLoop u ⟨.init, true, [], 0, []⟩ = .ok p) ∨
    (∃ u, t = '0' :: u ∧ pLoop u ⟨.initZero, g, [], 0, []⟩ = .ok p) ∨
    ∃ c u, t = c :: u ∧ isDigit c = true ∧ c ≠ '0' ∧ pLoop u ⟨.readDigit, g, [c], 0, []⟩ = .ok p := by
  match t with
  | [] =>
    left
    rw [pLoop] at h
    rw [← Except.ok.inj h]
  | c :: t =>
    right
    rw [pLoop, pStep] at h
    simp only [pInit] at h
    by_cases h1 : c = '-'
    · left
      rw [if_pos h1] at h
      cases g
      · exact ⟨rfl, t, by rw [h1], h⟩
      · exact absurd h (by simp)
    right
    rw [if_neg h1] at h
    by_cases h2 : c = '0'
    · left
      rw [if_pos h2] at h
      exact ⟨t, by rw [h2], h⟩
    right
    rw [if_neg h2] at h
    by_cases h3 : isDigit c = true
    · rw [if_pos h3] at h
      exact ⟨c, t, rfl, h3, h2, h⟩
    · rw [if_neg h3] at h
      exact absurd h (by simp)

theorem accept {s : Str} {p : PSt} (h : pLoop s ⟨.init, false, [], 0, []⟩ = .ok p) (hp : p.st ≠ .init) :
    ∃ g : Bool, (∃ c b t, s = (if g then ['-'] else []) ++ '0' :: c :: t ∧ BaseChar c b ∧ ∀ c ∈ t, c = '_' ∨ ∃ d, toDigit b c = some d) ∨
    ∃ ip fp ep, s = (if g then ['-'] else []) ++ ip ++ (fp ++ ep) ∧
      (ip = ['0'] ∨ ∃ c t, ip = c :: t ∧ isDigit c = true ∧ c ≠ '0' ∧ ∀ c ∈ t, isDigit c = true ∨ c = '_') ∧
      (fp = [] ∨ ∃ t, fp = '.' :: t ∧ ∀ c ∈ t, isDigit c = true ∨ c = '_') ∧
      (ep = [] ∨ ∃ c v, ep = c :: v ∧ (c = 'e' ∨ c = 'E')) := by
  have body : ∀ {u : Str} {g : Bool}, ((∃ v, u = '0' :: v ∧ pLoop v ⟨.initZero, g, [], 0, []⟩ = .ok p) ∨
      ∃ c v, u = c :: v ∧ isDigit c = true ∧ c ≠ '0' ∧ pLoop v ⟨.readDigit, g, [c], 0, []⟩ = .ok p) →
      (∃ c b t, u = '0' :: c :: t ∧ BaseChar c b ∧ ∀ c ∈ t, c = '_' ∨ ∃ d, toDigit b c = some d) ∨
      ∃ ip fp ep, u = ip ++ (fp ++ ep) ∧
      (ip = ['0'] ∨ ∃ c t, ip = c :: t ∧ isDigit c = true ∧ c ≠ '0' ∧ ∀ c ∈ t, isDigit c = true ∨ c = '_') ∧
      (fp = [] ∨ ∃ t, fp = '.' :: t ∧ ∀ c ∈ t, isDigit c = true ∨ c = '_') ∧
      (ep = [] ∨ ∃ c v, ep = c :: v ∧ (c = 'e' ∨ c = 'E')) := by
    rintro u g (⟨v, rfl, hv⟩ | ⟨c, v, rfl, h1, h2, hv⟩)
    · rcases accept_zero hv with ⟨c, b, w, rfl, h1, h2⟩ | ⟨fp, ep, rfl, h1, h2⟩
      · exact Or.inl ⟨c, b, w, rfl, h1, h2⟩
      · exact Or.inr ⟨['0'], fp, ep, rfl, Or.inl rfl, h1, h2⟩
    · obtain ⟨w, fp, ep, rfl, h3, h4, h5⟩ := accept_digit _ _ _ _ _ p hv
      exact Or.inr ⟨c :: w, fp, ep, rfl, Or.inr ⟨c, w, rfl, h1, h2, h3⟩, h4, h5⟩
  rcases accept_sign h with h | ⟨-, u, rfl, hu⟩ | h
  · exact absurd h hp
  · refine ⟨true, ?_⟩
    rcases accept_sign hu with h | ⟨h, -⟩ | h
    · exact absurd h hp
    · exact absurd h (by decide)
    · rcases body h with ⟨c, b, t, rfl, h1⟩ | ⟨ip, fp, ep, rfl, h1⟩
      · exact Or.inl ⟨c, b, t, rfl, h1⟩
      · exact Or.inr ⟨ip, fp, ep, rfl, h1⟩
  · refine ⟨false, ?_⟩
    rcases body h with ⟨c, b, t, rfl, h1⟩ | ⟨ip, fp, ep, rfl, h1⟩
    · exact Or.inl ⟨c, b, t, rfl, h1⟩
    · exact Or.inr ⟨ip, fp, ep, rfl, h1⟩

theorem decFold_some : ∀ {s : Str} {a n : Nat}, decFold s a = some n → (∀ c ∈ s, isDigit c = true) ∧ n = dval s a
  | [], a, n, h => ⟨by simp, by rw [decFold] at h; rw [dval]; exact (Option.some.inj h).symm⟩
  | c :: s, a, n, h => by
    rw [decFold] at h
    by_cases hc : isDigit c = true
    · rw [(digit_c hc).2.2] at h
      obtain ⟨h1, h2⟩ := decFold_some h
      refine ⟨?_, h2⟩
      intro c' hc'
      rcases List.mem_cons.1 hc' with rfl | hc'
      · exact hc
      · exact h1 c' hc'
    · have : toDigit 10 c = none := by
        unfold isDigit at hc
        cases h' : toDigit 10 c
        · rfl
        · rw [h'] at hc; simp at hc
      rw [this] at h
      exact absurd h (by simp)

theorem parseI64_some {t : Str} {x : Int} (h : parseI64 t = some x) : IntLit t x := by
  have hu : ∀ {s : Str} {n : Nat}, parseUInt s = some n → s ≠ [] ∧ (∀ c ∈ s, isDigit c = true) ∧ n = dval s 0 := by
    intro s n h
    rw [parseUInt] at h
    split_ifs at h with h0
    exact ⟨h0, decFold_some h⟩
  unfold parseI64 at h
  split at h
  · rename_i u
    split at h
    · rename_i n hn
      split_ifs at h
      obtain ⟨h1, h2, h3⟩ := hu hn
      exact ⟨u, h1, h2, Or.inr (Or.inr ⟨rfl, by rw [← h3]; exact (Option.some.inj h).symm⟩)⟩
    · exact absurd h (by simp)
  · rename_i u
    split at h
    · rename_i n hn
      split_ifs at h
      obtain ⟨h1, h2, h3⟩ := hu hn
      exact ⟨u, h1, h2, Or.inr (Or.inl ⟨rfl, by rw [← h3]; exact (Option.some.inj h).symm⟩)⟩
    · exact absurd h (by simp)
  · split at h
    · rename_i n hn
      split_ifs at h
      obtain ⟨h1, h2, h3⟩ := hu hn
      exact ⟨t, h1, h2, Or.inl ⟨rfl, by rw [← h3]; exact (Option.some.inj h).symm⟩⟩
    · exact absurd h (by simp)

/-- a string is rejected, or it has the form of a number -/
theorem from_str_form (s : Str) : (∃ e, from_str s = pure (.error e)) ∨
    ∃ g : Bool, (∃ c b t, s = (if g then ['-'] else []) ++ '0' :: c :: t ∧ BaseChar c b ∧ ∀ c ∈ t, c = '_' ∨ ∃ d, toDigit b c = some d) ∨
    ∃ ip fp ep, s = (if g then ['-'] else []) ++ ip ++ (fp ++ ep) ∧
      (ip = ['0'] ∨ ∃ c t, ip = c :: t ∧ isDigit c = true ∧ c ≠ '0' ∧ ∀ c ∈ t, isDigit c = true ∨ c = '_') ∧
      (fp = [] ∨ ∃ t, fp = '.' :: t ∧ ∀ c ∈ t, isDigit c = true ∨ c = '_') ∧
      (ep = [] ∨ ∃ c v, ep = c :: v ∧ (c = 'e' ∨ c = 'E') ∧ (v = [] ∨ ∃ x, IntLit v x)) := by
  cases hl : pLoop s ⟨.init, false, [], 0, []⟩ with
  | error e =>
    left
    exact ⟨e, by rw [from_str, hl]⟩
  | ok p =>
    by_cases hi : p.st = .init
    · left
      exact ⟨.noData, by rw [from_str, hl]; simp only [hi]⟩
    obtain ⟨g, h | ⟨ip, fp, ep, rfl, h1, h2, h3⟩⟩ := accept hl hi
    · exact Or.inr ⟨g, Or.inl h⟩
    obtain ⟨st, ds, q1, q2⟩ := pLoop_int h1 g (fp ++ ep)
    obtain ⟨st', q3, q4⟩ := pLoop_frac (st := st) (by rcases q2 with h | h <;> simp [h.1]) h2 h3 g ds
    rw [q1, q4] at hl
    obtain rfl := Except.ok.inj hl
    rcases h3 with rfl | ⟨c, v, rfl, hc⟩
    · exact Or.inr ⟨g, Or.inr ⟨ip, fp, [], rfl, h1, h2, Or.inl rfl⟩⟩
    · by_cases hv : v = []
      · exact Or.inr ⟨g, Or.inr ⟨ip, fp, _, rfl, h1, h2, Or.inr ⟨c, v, rfl, hc, Or.inl hv⟩⟩⟩
      · cases hx : parseI64 v with
        | some x => exact Or.inr ⟨g, Or.inr ⟨ip, fp, _, rfl, h1, h2, Or.inr ⟨c, v, rfl, hc, Or.inr ⟨x, parseI64_some hx⟩⟩⟩⟩
        | none =>
          left
          refine ⟨.tryFromInt, ?_⟩
          rw [from_str, q1, q4]
          have hfd : ∀ b d y, finishDec ⟨st', b, d, y, v⟩ = pure (.error .tryFromInt) := by
            intro b d y
            rw [finishDec, if_pos hv, hx]
          simp only [List.tail_cons]
          rcases q3 with rfl | rfl | rfl | ⟨-, -, h, -⟩
          · exact hfd ..
          · exact hfd ..
          · exact hfd ..
          · exact absurd h (by simp)

end F192
end Hmath
