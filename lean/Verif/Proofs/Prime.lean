import Mathlib.Data.Nat.Prime.Basic
import Mathlib.Data.Nat.Factors
import Mathlib.Algebra.BigOperators.Group.List.Basic
import Verif.Proofs.Sqrt

/-!
# `is_prime` and `prime_factorial`
-/

namespace Hmath
namespace UBig

/-- no divisor of `n` in `[2, d)` -/
def NoDiv (n d : Nat) : Prop := ∀ m, 2 ≤ m → m < d → ¬ m ∣ n

theorem NoDiv.three {n : Nat} (h : n % 2 = 1) : NoDiv n 3 := by
  intro m h1 h2 hd
  obtain rfl : m = 2 := by omega
  omega

theorem NoDiv.step {n d : Nat} (h : n % 2 = 1) (hd : d % 2 = 1) (hn : NoDiv n d) (hx : ¬ d ∣ n) :
    NoDiv n (d + 2) := by
  intro m h1 h2 hm
  by_cases h3 : m < d
  · exact hn m h1 h3 hm
  · rcases (by omega : m = d ∨ m = d + 1) with rfl | rfl
    · exact hx hm
    · have : 2 ∣ n := dvd_trans (by omega) hm
      omega

theorem NoDiv.prime {n d : Nat} (h2 : 2 ≤ n) (hn : NoDiv n d) (hd : Nat.sqrt n < d) : n.Prime :=
  Nat.prime_def_le_sqrt.mpr ⟨h2, fun m h1 h3 => hn m h1 (by omega)⟩

theorem not_prime_of_dvd_sqrt {n d : Nat} (hd : 2 ≤ d) (hS : d ≤ Nat.sqrt n) (h : d ∣ n) :
    ¬ n.Prime := fun hp => (Nat.prime_def_le_sqrt.mp hp).2 d hd hS h

theorem primeLoop32_spec (it self : Nat) (hit : it = Nat.sqrt self + 1) (hb : it < B32)
    (hodd : self % 2 = 1) (h2 : 2 ≤ self) :
    ∀ k div, it ≤ div + k → 3 ≤ div → div % 2 = 1 → NoDiv self div → 
      primeLoop32 it self div = pure (decide self.Prime) := by
  intro k
  induction k with
  | zero =>
    intro div hk h3 ho hn
    have hp : self.Prime := hn.prime h2 (by omega)
    rw [primeLoop32, if_neg (by omega), decide_eq_true hp]
  | succ k ih =>
    intro div hk h3 ho hn
    rw [primeLoop32]
    by_cases hlt : div < it
    · rw [if_pos hlt, uRem_eq (by omega), pure_bind]
      by_cases hd : self % div = 0
      · have hp : ¬ self.Prime :=
          not_prime_of_dvd_sqrt (by omega) (by omega : div ≤ Nat.sqrt self) (Nat.dvd_of_mod_eq_zero hd)
        rw [if_pos hd, decide_eq_false hp]
      · rw [if_neg hd, u32Add, uAdd_eq (by omega), pure_bind]
        exact ih (div + 2) (by omega) (by omega) (by omega)
          (hn.step hodd ho fun h => hd (Nat.mod_eq_zero_of_dvd h))
    · have hp : self.Prime := hn.prime h2 (by omega)
      rw [if_neg hlt, decide_eq_true hp]

theorem primeLoopU32_spec (n : Nat) (hodd : n % 2 = 1) (hlen : (ofNat n).length ≤ B32)
    (hS : U32MAX ≤ Nat.sqrt n) :
    ∀ k div, div + 2 * k ≤ U32MAX → 3 ≤ div → div % 2 = 1 → NoDiv n div →
      ∃ b, primeLoopU32 (ofNat n) k div = pure b ∧ (b = true → NoDiv n (div + 2 * k)) ∧
        (b = false → ¬ n.Prime) := by
  intro k
  induction k with
  | zero => intro div _ _ _ hn; exact ⟨true, rfl, fun _ => hn, by simp⟩
  | succ k ih =>
    intro div hk h3 ho hn
    rw [primeLoopU32, rem_u32_eq (valid_ofNat n) (by omega) (by omega) hlen, pure_bind, is_zero_c,
      val_ofNat]
    by_cases hd : n % div = 0
    · have hp : ¬ n.Prime :=
          not_prime_of_dvd_sqrt (by omega) (by omega : div ≤ Nat.sqrt n) (Nat.dvd_of_mod_eq_zero hd)
      rw [decide_eq_true hd, if_pos rfl]
      exact ⟨false, rfl, by simp, fun _ => hp⟩
    · rw [decide_eq_false hd]
      simp only [Bool.false_eq_true, if_false]
      rw [u32Add, uAdd_eq (by omega), pure_bind]
      have := ih (div + 2) (by omega) (by omega) (by omega)
          (hn.step hodd ho fun h => hd (Nat.mod_eq_zero_of_dvd h))
      rwa [show div + 2 + 2 * k = div + 2 * (k + 1) by ring] at this

theorem primeLoopBig_spec (n : Nat) (hodd : n % 2 = 1) (h2 : 2 ≤ n) :
    ∀ k d, Nat.sqrt n + 1 ≤ d + k → 3 ≤ d → d % 2 = 1 → NoDiv n d →
      primeLoopBig (ofNat n) (ofNat d) = pure (decide n.Prime) := by
  have stop : ∀ d, n < d * d → NoDiv n d →
      primeLoopBig (ofNat n) (ofNat d) = pure (decide n.Prime) := by
    intro d hlt hn
    have hp : n.Prime := hn.prime h2 (sqrt_lt_of_sq hlt)
    rw [primeLoopBig, mul_c, pure_bind, leq_c, decide_eq_false (by omega), decide_eq_true hp]
    rfl
  intro k
  induction k with
  | zero =>
    intro d hk h3 ho hn
    refine stop d ?_ hn
    have := (sqrt_bounds n).2
    have h2 : (Nat.sqrt n + 1) * (Nat.sqrt n + 1) ≤ d * d := Nat.mul_le_mul (by omega) (by omega)
    omega
  | succ k ih =>
    intro d hk h3 ho hn
    by_cases hle : d * d ≤ n
    · rw [primeLoopBig, mul_c, pure_bind, leq_c, decide_eq_true hle, if_pos rfl, rem_c (by omega),
        pure_bind, is_zero_c]
      by_cases hd : n % d = 0
      · have hp : ¬ n.Prime :=
          not_prime_of_dvd_sqrt (by omega) (le_sqrt_of_sq hle) (Nat.dvd_of_mod_eq_zero hd)
        rw [decide_eq_true hd, if_pos rfl, decide_eq_false hp]
      · rw [decide_eq_false hd]
        simp only [Bool.false_eq_true, if_false]
        rw [add_u32_mut_c (by omega), pure_bind]
        exact ih (d + 2) (by omega) (by omega) (by omega)
          (hn.step hodd ho fun h => hd (Nat.mod_eq_zero_of_dvd h))
    · exact stop d (by omega) hn

theorem primeLarge_spec (n : Nat) (h : n % 2 = 1) (h2 : 2 ≤ n) (hlen : (ofNat n).length ≤ B32)
    (hS : U32MAX ≤ Nat.sqrt n) (k : Nat) (hk : 3 + 2 * k = U32MAX) :
    primeLarge (ofNat n) k = pure (decide n.Prime) := by
  obtain ⟨b, e, hb1, hb2⟩ := primeLoopU32_spec n h hlen hS k 3
    (by omega) (by omega) (by omega) (NoDiv.three h)
  rw [primeLarge, e, pure_bind]
  cases b with
  | false =>
    simp only [Bool.false_eq_true, if_false]
    rw [decide_eq_false (hb2 rfl)]
  | true =>
    have e1 : u64Add U32MAX (U32MAX % 2) = pure 4294967296 := by
      rw [u64Add, uAdd_eq (by norm_num)]
    have e2 : u64Add 4294967296 1 = pure 4294967297 := by
      rw [u64Add, uAdd_eq (by norm_num)]
    rw [if_pos rfl, e1, pure_bind, e2, pure_bind, from_u64_eq (by norm_num)]
    have hn1 : NoDiv n 4294967295 := by
      have := hb1 rfl
      rwa [hk] at this
    have hx : ¬ 4294967295 ∣ n := fun hd =>
      hn1 3 (by norm_num) (by norm_num) (Nat.dvd_trans (by norm_num : 3 ∣ 4294967295) hd)
    have hn2 : NoDiv n 4294967297 := hn1.step h (by norm_num) hx
    exact primeLoopBig_spec n h h2 (Nat.sqrt n + 1) 4294967297 (by omega) (by omega)
      (by omega) hn2

theorem head_ofNat (n : Nat) : idx (ofNat n) 0 = pure (n % B32) := by
  by_cases h : n < B32
  · rw [ofNat_lt h, idx_zero_cons, Nat.mod_eq_of_lt h]
  · rw [ofNat_ge (by omega), idx_zero_cons]

theorem is_prime_even (n : Nat) (h : n % 2 = 0) : is_prime (ofNat n) = pure (decide n.Prime) := by
  rw [is_prime, head_ofNat, pure_bind, if_pos (by omega)]
  congr 1
  rw [decide_eq_decide]
  constructor
  · rintro ⟨h1, h2⟩
    have : n < B32 := by
      have := (length_ofNat_le_iff (n := n) (k := 1) (by omega)).mp (by omega)
      rwa [pow_one] at this
    have : n = 2 := by omega
    rw [this]; exact Nat.prime_two
  · intro hp
    obtain rfl : n = 2 := (hp.eq_one_or_self_of_dvd 2 (by omega)).elim (by omega) (fun h => h.symm)
    refine ⟨rfl, ?_⟩
    rw [ofNat_lt (by omega)]; rfl

theorem is_prime_odd (n : Nat) (h : n % 2 = 1) (hlen : (ofNat n).length ≤ B32)
    (hs : n ≠ 1 → sqrt (ofNat n) = pure (ofNat (Nat.sqrt n))) :
    is_prime (ofNat n) = pure (decide n.Prime) := by
  rw [is_prime, head_ofNat, pure_bind, if_neg (by omega), is_one_c]
  by_cases h1 : n = 1
  · rw [decide_eq_true h1, if_pos rfl, h1]
    rw [decide_eq_false Nat.not_prime_one]
  · rw [decide_eq_false h1]
    simp only [Bool.false_eq_true, if_false]
    rw [hs h1, pure_bind, add_u32_c (by omega), pure_bind, to_u32_c, pure_bind]
    by_cases hit : Nat.sqrt n + 1 < B32
    · rw [if_pos hit]
      have hn : n < B64 := by
        have := (sqrt_bounds n).2
        have h2 : (Nat.sqrt n + 1) * (Nat.sqrt n + 1) < B64 := sq_lt_B64 hit
        omega
      simp only [primeBody]
      rw [to_u64_c, if_pos hn, pure_bind, unwrapR_ok, pure_bind,
        primeLoop32_spec _ n rfl hit h (by omega) (Nat.sqrt n + 1) 3 (by omega) (by omega) (by omega)
          (NoDiv.three h)]
    · rw [if_neg hit]
      exact primeLarge_spec n h (by omega) hlen (by omega) _ (by norm_num)

theorem is_prime_c (n : Nat) (hlen : (ofNat n).length ≤ B32)
    (h : n % 2 = 0 ∨ topPart n < 18432275944676888320) :
    is_prime (ofNat n) = pure (decide n.Prime) := by
  rcases Nat.mod_two_eq_zero_or_one n with h0 | h0
  · exact is_prime_even n h0
  · exact is_prime_odd n h0 hlen fun _ => sqrt_c n (by omega)

theorem is_prime_or (n : Nat) (hlen : (ofNat n).length ≤ B32) :
    Panics (is_prime (ofNat n)) ∨ is_prime (ofNat n) = pure (decide n.Prime) := by
  rcases Nat.mod_two_eq_zero_or_one n with h0 | h0
  · exact .inr (is_prime_even n h0)
  · rcases sqrt_or n with ⟨p, e⟩ | e
    · by_cases h1 : n = 1
      · exact .inr (is_prime_odd n h0 hlen fun h => absurd h1 h)
      · left
        refine ⟨p, ?_⟩
        rw [is_prime, head_ofNat, pure_bind, if_neg (by omega), is_one_c, decide_eq_false h1]
        simp only [Bool.false_eq_true, if_false]
        rw [e]; rfl
    · exact .inr (is_prime_odd n h0 hlen fun _ => e)

theorem is_prime_panics (n : Nat) (ho : n % 2 = 1) (h : 18432275944676888320 ≤ topPart n) :
    Panics (is_prime (ofNat n)) := by
  have h1 : n ≠ 1 := by
    rintro rfl
    have : topPart 1 ≤ 1 := Nat.div_le_self _ _
    omega
  obtain ⟨p, e⟩ := sqrt_panics n h
  refine ⟨p, ?_⟩
  rw [is_prime, head_ofNat, pure_bind, if_neg (by omega), is_one_c, decide_eq_false h1]
  simp only [Bool.false_eq_true, if_false]
  rw [e]; rfl

/-! ### factorisation -/

theorem from_u32_two : from_u32 2 = ofNat 2 := (ofNat_lt (by omega)).symm

theorem pfTwos_spec : ∀ n, 0 < n → ∀ res : List Nat,
    ∃ k m, pfTwos (ofNat n) (res.map ofNat) = pure (ofNat m, (List.replicate k 2 ++ res).map ofNat) ∧
      n = 2 ^ k * m ∧ m % 2 = 1 := by
  intro n
  induction n using Nat.strong_induction_on with
  | _ n ih =>
    intro h0 res
    rw [pfTwos, gt_u32_c (by omega), pure_bind]
    by_cases h1 : 1 < n
    · rw [decide_eq_true h1, if_pos rfl]
      have e2 := rem_pow2_eq (k := 1) (valid_ofNat n) (by omega)
      rw [pow_one, val_ofNat] at e2
      rw [e2, pure_bind, is_zero_c]
      by_cases h2 : n % 2 = 0
      · rw [decide_eq_true h2, if_pos rfl, div_u32_mut_c (by omega) (by omega), pure_bind,
          from_u32_two, ← List.map_cons]
        obtain ⟨k, m, e, hm, ho⟩ := ih (n / 2) (by omega) (by omega) (2 :: res)
        refine ⟨k + 1, m, ?_, ?_, ho⟩
        · rw [e]; congr 2
          rw [List.replicate_succ', List.append_assoc]; rfl
        · rw [pow_succ, show 2 ^ k * 2 * m = 2 * (2 ^ k * m) by ring, ← hm]; omega
      · rw [decide_eq_false h2]
        exact ⟨0, n, by simp, by simp, by omega⟩
    · rw [decide_eq_false h1]
      exact ⟨0, n, by simp, by simp, by omega⟩

theorem pfInner32_spec (div : Nat) (hd : 2 ≤ div) (hdb : div < B32) : ∀ n, 0 < n →
    (ofNat n).length ≤ B32 → ∀ res : List Nat,
    ∃ k m, pfInner32 (ofNat n) div (res.map ofNat) =
        pure (ofNat m, (List.replicate k div ++ res).map ofNat) ∧
      n = div ^ k * m ∧ ¬ div ∣ m := by
  intro n
  induction n using Nat.strong_induction_on with
  | _ n ih =>
    intro h0 hlen res
    rw [pfInner32, rem_u32_eq (valid_ofNat n) hdb (by omega) hlen, pure_bind, is_zero_c, val_ofNat]
    by_cases h2 : n % div = 0
    · have hlt : n / div < n := Nat.div_lt_self h0 (by omega)
      have hdv := Nat.dvd_of_mod_eq_zero h2
      have hpos : 0 < n / div := Nat.div_pos (Nat.le_of_dvd h0 hdv) (by omega)
      rw [decide_eq_true h2, if_pos rfl, div_u32_mut_c hdb (by omega), pure_bind,
        from_u32_eq hdb, ← List.map_cons]
      obtain ⟨k, m, e, hm, ho⟩ := ih (n / div) hlt hpos
        (le_trans (length_ofNat_mono hlt.le) hlen) (div :: res)
      refine ⟨k + 1, m, ?_, ?_, ho⟩
      · rw [e]; congr 2
        rw [List.replicate_succ', List.append_assoc]; rfl
      · rw [pow_succ, show div ^ k * div * m = div * (div ^ k * m) by ring, ← hm,
          Nat.mul_div_cancel' hdv]
    · rw [decide_eq_false h2]
      exact ⟨0, n, by simp, by simp, fun h => h2 (Nat.mod_eq_zero_of_dvd h)⟩

/-- a good partial factorisation of `N`: cofactor `m`, factors found so far
(latest first), all of them primes below `d` -/
structure PF (N m d : Nat) (res : List Nat) : Prop where
  prod : res.prod * m = N
  primes : ∀ p ∈ res, p.Prime
  sorted : res.Pairwise (· ≥ ·)
  bound : ∀ p ∈ res, p < d
  odd : m % 2 = 1
  nodiv : NoDiv m d

theorem PF.step {N m d k m' : Nat} {res : List Nat} (h : PF N m d res) (hd : 3 ≤ d)
    (hdo : d % 2 = 1) (hm : m = d ^ k * m') (hnd : ¬ d ∣ m') :
    PF N m' (d + 2) (List.replicate k d ++ res) := by
  have hm' : m' ∣ m := ⟨d ^ k, by rw [hm]; ring⟩
  have hodd : m' % 2 = 1 := by
    have h1 := h.odd
    by_contra hc
    have : 2 ∣ m := dvd_trans (by omega) hm'
    omega
  refine ⟨?_, ?_, ?_, ?_, hodd, ?_⟩
  · rw [List.prod_append, List.prod_replicate, ← h.prod, hm]; ring
  · intro p hp
    rcases List.mem_append.mp hp with hp | hp
    · obtain ⟨hk, rfl⟩ := List.mem_replicate.mp hp
      -- `d` divides `m`, and `m` has no smaller divisor
      have hdm : p ∣ m := by
        obtain ⟨j, rfl⟩ := Nat.exists_eq_succ_of_ne_zero hk
        rw [hm, Nat.succ_eq_add_one, pow_succ]
        exact ⟨p ^ j * m', by ring⟩
      rw [Nat.prime_def]
      refine ⟨by omega, fun x hx => ?_⟩
      by_contra hc
      push Not at hc
      have hx0 : 0 < x := Nat.pos_of_dvd_of_pos hx (by omega)
      have hxle := Nat.le_of_dvd (by omega) hx
      exact h.nodiv x (by omega) (by omega) (dvd_trans hx hdm)
    · exact h.primes p hp
  · rw [List.pairwise_append]
    refine ⟨?_, h.sorted, ?_⟩
    · rw [List.pairwise_replicate]; right; exact le_refl d
    · intro x hx y hy
      rw [(List.mem_replicate.mp hx).2]
      exact (h.bound y hy).le
  · intro p hp
    rcases List.mem_append.mp hp with hp | hp
    · rw [(List.mem_replicate.mp hp).2]; omega
    · have := h.bound p hp; omega
  · have h1 : NoDiv m' d := fun x h2 h3 h4 => h.nodiv x h2 h3 (dvd_trans h4 hm')
    exact h1.step hodd hdo hnd

theorem pfLoop32_spec (N : Nat) (hlenN : (ofNat N).length ≤ B32) (hN : 0 < N) :
    ∀ k d m res, U32MAX + 2 ≤ d + k → 3 ≤ d → d ≤ U32MAX → d % 2 = 1 → PF N m d res →
      (Panics (pfLoop32 (ofNat m) d (res.map ofNat)) ∧ U32MAX * U32MAX ≤ m) ∨
      ∃ d' m' res', pfLoop32 (ofNat m) d (res.map ofNat) = pure (ofNat m', res'.map ofNat) ∧
        PF N m' d' res' ∧ m' < d' * d' ∧ d' ≤ U32MAX := by
  intro k
  induction k with
  | zero => intro d m res hk h3 hd; omega
  | succ k ih =>
    intro d m res hk h3 hd ho hpf
    have hmN : m ∣ N := ⟨res.prod, by rw [← hpf.prod]; ring⟩
    have hlen : (ofNat m).length ≤ B32 :=
      le_trans (length_ofNat_mono (Nat.le_of_dvd hN hmN)) hlenN
    have hm0 : 0 < m := Nat.pos_of_dvd_of_pos hmN hN
    have hdd : d * d < B64 := sq_lt_B64 (by omega)
    rw [pfLoop32, u64Mul, uMul_eq hdd, pure_bind, from_u64_eq hdd, geq_c]
    by_cases hge : d * d ≤ m
    · rw [decide_eq_true hge, if_pos rfl]
      obtain ⟨j, m', e, hm', hnd⟩ := pfInner32_spec d (by omega) (by omega) m hm0 hlen res
      rw [e, pure_bind]
      by_cases hmax : d = U32MAX
      · left
        subst hmax
        exact ⟨⟨.overflow, rfl⟩, hge⟩
      · rw [u32Add, uAdd_eq (by omega), pure_bind]
        have hpf' := hpf.step h3 ho hm' hnd
        rcases ih (d + 2) m' _ (by omega) (by omega) (by omega) (by omega) hpf' with h | h
        · left
          refine ⟨h.1, le_trans h.2 ?_⟩
          exact Nat.le_of_dvd hm0 ⟨d ^ j, by rw [hm']; ring⟩
        · right; exact h
    · right
      rw [decide_eq_false hge]
      exact ⟨d, m, res, rfl, hpf, by omega, hd⟩

theorem pf_start {n k m : Nat} (hn : n = 2 ^ k * m) (ho : m % 2 = 1) :
    PF n m 3 (List.replicate k 2 ++ []) := by
  refine ⟨?_, ?_, ?_, ?_, ho, NoDiv.three ho⟩
  · simp [hn]
  · intro p hp
    rw [List.append_nil] at hp
    rw [(List.mem_replicate.mp hp).2]; exact Nat.prime_two
  · rw [List.append_nil, List.pairwise_replicate]; right; exact le_refl 2
  · intro p hp
    rw [List.append_nil] at hp
    rw [(List.mem_replicate.mp hp).2]; omega

theorem prime_factorial_or (n : Nat) (hn : 2 ≤ n) (hlen : (ofNat n).length ≤ B32) :
    (Panics (prime_factorial (ofNat n)) ∧ U32MAX * U32MAX ≤ n) ∨
    ∃ l : List Nat, prime_factorial (ofNat n) = pure (l.map ofNat) ∧ l.Pairwise (· ≤ ·) ∧
      (∀ p ∈ l, p.Prime) ∧ l.prod = n := by
  obtain ⟨k, m, e, hm, ho⟩ := pfTwos_spec n (by omega) []
  rw [List.map_nil] at e
  have hpf := pf_start hm ho
  rw [prime_factorial, e, pure_bind]
  simp only
  rcases pfLoop32_spec n hlen (by omega) (U32MAX + 2) 3 m _ (by omega) (by omega) (by omega)
    (by omega) hpf with ⟨⟨p, h⟩, hb⟩ | ⟨d', m', res, e2, hpf', hlt, hd'⟩
  · left
    rw [h]
    refine ⟨⟨p, rfl⟩, le_trans hb ?_⟩
    exact Nat.le_of_dvd (by omega) ⟨2 ^ k, by rw [hm]; ring⟩
  · right
    rw [e2, pure_bind]
    simp only
    have hlt2 : m' < U32MAX * U32MAX := lt_of_lt_of_le hlt (Nat.mul_le_mul hd' hd')
    rw [from_u32_eq (by omega), pfLoopBig, mul_c, pure_bind, geq_c, decide_eq_false (by omega)]
    simp only [Bool.false_eq_true, if_false]
    rw [pure_bind]
    simp only
    rw [gt_u32_c (by omega), pure_bind]
    by_cases h1 : 1 < m'
    · have hp : m'.Prime := hpf'.nodiv.prime (by omega) (sqrt_lt_of_sq hlt)
      have hdm : d' ≤ m' := by
        by_contra hc
        exact hpf'.nodiv m' (by omega) (by omega) dvd_rfl
      rw [decide_eq_true h1, Bool.true_or, if_pos rfl, ← List.map_cons, ← List.map_reverse]
      refine ⟨_, rfl, ?_, ?_, ?_⟩
      · rw [List.pairwise_reverse, List.pairwise_cons]
        refine ⟨fun x hx => ?_, hpf'.sorted⟩
        have := hpf'.bound x hx; omega
      · intro p hp'
        rw [List.mem_reverse, List.mem_cons] at hp'
        rcases hp' with rfl | hp'
        · exact hp
        · exact hpf'.primes p hp'
      · rw [List.prod_reverse, List.prod_cons, ← hpf'.prod]; ring
    · have hm1 : m' = 1 := by have := hpf'.odd; omega
      have hne : res.length ≠ 0 := by
        intro h
        have := hpf'.prod
        rw [List.eq_nil_of_length_eq_zero h, hm1] at this
        simp at this; omega
      rw [decide_eq_false h1, Bool.false_or, List.length_map, beq_false_of_ne hne]
      simp only [Bool.false_eq_true, if_false]
      rw [← List.map_reverse]
      refine ⟨_, rfl, ?_, ?_, ?_⟩
      · rw [List.pairwise_reverse]; exact hpf'.sorted
      · intro p hp'
        rw [List.mem_reverse] at hp'
        exact hpf'.primes p hp'
      · rw [List.prod_reverse, ← hpf'.prod, hm1, mul_one]

/-- A prime above `(2^32-1)^2` makes `prime_factorial` panic. -/
theorem prime_factorial_prime_panics (n : Nat) (hp : n.Prime) (hb : U32MAX * U32MAX ≤ n)
    (hlen : (ofNat n).length ≤ B32) : Panics (prime_factorial (ofNat n)) := by
  have hodd : n % 2 = 1 := by
    rcases hp.eq_two_or_odd with h | h
    · omega
    · exact h
  have hno : ∀ d, d ≤ U32MAX → 2 ≤ d → ¬ d ∣ n := by
    intro d h1 h2 h3
    rcases (Nat.dvd_prime hp).mp h3 with h | h <;> omega
  have loop : ∀ k d, d + 2 * k = U32MAX → 3 ≤ d → Panics (pfLoop32 (ofNat n) d ([].map ofNat)) := by
    intro k
    induction k with
    | zero =>
      intro d hk h3
      obtain rfl : d = U32MAX := by omega
      rw [pfLoop32, u64Mul, uMul_eq (by omega), pure_bind, from_u64_eq (by omega), geq_c,
        decide_eq_true hb, if_pos rfl]
      obtain ⟨j, m', e, hm', hnd⟩ := pfInner32_spec U32MAX (by omega) (by omega) n (by omega) hlen []
      rw [e, pure_bind]
      exact ⟨.overflow, rfl⟩
    | succ k ih =>
      intro d hk h3
      have hdd : d * d ≤ U32MAX * U32MAX := Nat.mul_le_mul (by omega) (by omega)
      rw [pfLoop32, u64Mul, uMul_eq (by omega), pure_bind, from_u64_eq (by omega), geq_c,
        decide_eq_true (by omega), if_pos rfl]
      rw [pfInner32, rem_u32_eq (valid_ofNat n) (by omega) (by omega) hlen, pure_bind, is_zero_c,
        val_ofNat, decide_eq_false (fun h => hno d (by omega) (by omega) (Nat.dvd_of_mod_eq_zero h))]
      simp only [Bool.false_eq_true, if_false]
      rw [pure_bind, u32Add, uAdd_eq (by omega), pure_bind]
      exact ih (d + 2) (by omega) (by omega)
  rw [prime_factorial]
  have e0 : pfTwos (ofNat n) [] = pure (ofNat n, []) := by
    have e2 := rem_pow2_eq (k := 1) (valid_ofNat n) (by omega)
    rw [pow_one, val_ofNat] at e2
    rw [pfTwos, gt_u32_c (by omega), pure_bind, decide_eq_true (by omega), if_pos rfl, e2,
      pure_bind, is_zero_c, decide_eq_false (by omega)]
    rfl
  rw [e0, pure_bind]
  obtain ⟨p, e⟩ := loop 2147483646 3 (by norm_num) (by omega)
  rw [List.map_nil] at e
  simp only
  rw [e]
  exact ⟨p, rfl⟩

theorem prime_factorial_zero : prime_factorial [0] = pure [[0]] := by
  rw [← ofNat_zero, prime_factorial, pfTwos, gt_u32_c (by omega), pure_bind,
    decide_eq_false (by omega)]
  simp only [Bool.false_eq_true, if_false]
  rw [pure_bind]
  simp only
  rw [pfLoop32, u64Mul, uMul_eq (by omega), pure_bind, from_u64_eq (by omega), geq_c,
    decide_eq_false (by omega)]
  simp only [Bool.false_eq_true, if_false]
  rw [pure_bind]
  simp only
  rw [from_u32_eq (by omega), pfLoopBig, mul_c, pure_bind, geq_c, decide_eq_false (by omega)]
  simp only [Bool.false_eq_true, if_false]
  rw [pure_bind]
  simp only
  rw [gt_u32_c (by omega), pure_bind]
  rfl

end UBig
end Hmath
