import Mathlib.NumberTheory.LucasLehmer
import Mathlib.Tactic.NormNum.Prime
import Verif.Proofs.FactFib
import Verif.Proofs.PrimePanic

/-!
# Properties of `sqrt`, `is_prime`, `prime_factorial`, `factorial`, `fibonacci`
-/

namespace Hmath
namespace Props

open UBig

/-! ## C10 square root

Full claim: `sqrt` returns the integer square root of every `UBigInt`.  It is
refuted by `C10_sqrt_counterexample` (every number whose two leading limbs form a
number of `2^64 - 120283536^2` or more panics); the `_partial` theorem gives the root of
every other number, and `C10_sqrt_returned` shows that a returned value is always right. -/

/-- Whenever `sqrt` does not panic it returns the integer square root; it never
loops forever. -/
theorem C10_sqrt_returned {a : UBig} (ha : Valid a) :
    Panics (sqrt a) ∨ ∃ r, Computes (sqrt a) r ∧ r ^ 2 ≤ val a ∧ val a < (r + 1) ^ 2 := by
  rw [ha.eq_ofNat]
  rcases sqrt_or (val a) with h | h
  · exact .inl h
  · refine .inr ⟨Nat.sqrt (val a), ⟨_, h, valid_ofNat _, val_ofNat _⟩, ?_, ?_⟩
    · rw [val_ofNat, sq]; exact Nat.sqrt_le _
    · rw [val_ofNat, sq]; exact Nat.lt_succ_sqrt _

example : Panics (sqrt [0, 0, 1]) ∨ ∃ r, Computes (sqrt [0, 0, 1]) r ∧ r ^ 2 ≤ val [0, 0, 1] ∧
    val [0, 0, 1] < (r + 1) ^ 2 := C10_sqrt_returned (by decide)

/-- `sqrt` returns the integer square root if the number formed by the two leading
limbs is less than `2^64 - 120283536^2`, about `2^64 - 2^53.7`. -/
theorem C10_sqrt_partial {a : UBig} (ha : Valid a)
    (h : val a / (2 ^ 32) ^ (a.length - 2) < 2 ^ 64 - 120283536 ^ 2) :
    ∃ r, Computes (sqrt a) r ∧ r ^ 2 ≤ val a ∧ val a < (r + 1) ^ 2 := by
  rw [ha.eq_ofNat] at h ⊢
  rw [val_ofNat] at h ⊢
  refine ⟨Nat.sqrt (val a), ⟨_, sqrt_c (val a) h, valid_ofNat _, val_ofNat _⟩, ?_, ?_⟩
  · rw [sq]; exact Nat.sqrt_le _
  · rw [sq]; exact Nat.lt_succ_sqrt _

example : ∃ r, Computes (sqrt [5, 7, 4294967295, 4290000000]) r ∧
    r ^ 2 ≤ val [5, 7, 4294967295, 4290000000] ∧ val [5, 7, 4294967295, 4290000000] < (r + 1) ^ 2 :=
  C10_sqrt_partial (by decide) (by decide)

/-- Every number whose two leading limbs form a number of `2^64 - 120283536^2` or more
makes `sqrt` panic, so that the condition of `C10_sqrt_partial` is exact. -/
theorem C10_sqrt_counterexample {a : UBig} (ha : Valid a)
    (h : 2 ^ 64 - 120283536 ^ 2 ≤ val a / (2 ^ 32) ^ (a.length - 2)) : Panics (sqrt a) := by
  rw [ha.eq_ofNat] at h ⊢
  rw [val_ofNat] at h
  exact sqrt_panics (val a) (by simpa [topPart] using h)

example : Panics (sqrt [4294967295, 4294967295]) :=
  C10_sqrt_counterexample (by decide) (by decide)
example : Panics (sqrt [0, 0, 0, 4294967295, 4294967295]) :=
  C10_sqrt_counterexample (by decide) (by decide)
/-- the least number that panics, and the one below -/
example : Panics (sqrt [879857408, 4291598672]) ∧
    Computes (sqrt [879857407, 4291598672]) 4293282653 := by
  refine ⟨C10_sqrt_counterexample (by decide) (by decide), ?_⟩
  obtain ⟨r, hr, h1, h2⟩ := C10_sqrt_partial (a := [879857407, 4291598672]) (by decide) (by decide)
  rw [show val [879857407, 4291598672] = 18432275944676888319 by decide] at h1 h2
  obtain rfl : r = 4293282653 := by
    apply le_antisymm
    · by_contra hc
      have : 4293282654 ^ 2 ≤ r ^ 2 := Nat.pow_le_pow_left (by omega) 2
      omega
    · by_contra hc
      have : (r + 1) ^ 2 ≤ 4293282653 ^ 2 := Nat.pow_le_pow_left (by omega) 2
      omega
  exact hr

/-! ## C12 primality

Full claim: `is_prime` decides primality of every `UBigInt`.  Refuted by
`C12_is_prime_counterexample`, which inherits the overflow of `sqrt`.  The bound
`a.length ≤ 2^32` is the one of `rem_u32`, whose `u64` accumulator can overflow
on longer numbers (16 GiB of limbs). -/

/-- Whenever `is_prime` does not panic its answer is right; it never loops forever. -/
theorem C12_is_prime_returned {a : UBig} (ha : Valid a) (hl : a.length ≤ 2 ^ 32) :
    Panics (is_prime a) ∨ is_prime a = pure (decide (val a).Prime) := by
  rw [ha.eq_ofNat] at hl ⊢
  rw [val_ofNat]
  exact is_prime_or (val a) hl

example : Panics (is_prime [1, 1]) ∨ is_prime [1, 1] = pure (decide (val [1, 1]).Prime) :=
  C12_is_prime_returned (by decide) (by decide)

theorem C12_is_prime_partial {a : UBig} (ha : Valid a) (hl : a.length ≤ 2 ^ 32)
    (h : Even (val a) ∨ val a / (2 ^ 32) ^ (a.length - 2) < 2 ^ 64 - 120283536 ^ 2) :
    is_prime a = pure (decide (val a).Prime) := by
  rw [ha.eq_ofNat] at hl h ⊢
  rw [val_ofNat] at h ⊢
  refine is_prime_c (val a) hl ?_
  rcases h with h | h
  · exact .inl (Nat.even_iff.mp h)
  · exact .inr h

example : is_prime [10000019] = pure true := by
  rw [C12_is_prime_partial (by decide) (by decide) (.inr (by decide))]
  rw [decide_eq_true]
  have : val [10000019] = 10000019 := by decide
  rw [this]; norm_num
example : is_prime [1, 1] = pure false := by
  rw [C12_is_prime_partial (by decide) (by decide) (.inr (by decide))]
  rw [decide_eq_false]
  have : val [1, 1] = 641 * 6700417 := by decide
  rw [this]; exact Nat.not_prime_mul (by norm_num) (by norm_num)

/-- Every odd number whose two leading limbs form a number of `2^64 - 120283536^2` or
more makes `is_prime` panic, so that the condition of `C12_is_prime_partial` is exact. -/
theorem C12_is_prime_counterexample {a : UBig} (ha : Valid a) (ho : Odd (val a))
    (h : 2 ^ 64 - 120283536 ^ 2 ≤ val a / (2 ^ 32) ^ (a.length - 2)) : Panics (is_prime a) := by
  rw [ha.eq_ofNat] at h ho ⊢
  rw [val_ofNat] at h ho
  exact is_prime_panics (val a) (Nat.odd_iff.mp ho) (by simpa [topPart] using h)

example : Panics (is_prime [4294967295, 4294967295]) :=
  C12_is_prime_counterexample (by decide) (by decide) (by decide)

/-! ## C13 factorisation

Full claim: for `n ≥ 2`, `prime_factorial(n)` returns the non-decreasing list of
the prime factors of `n`.  Refuted by `C13_prime_factorial_counterexample`: the
`u32` trial divisor overflows when the cofactor is at least `(2^32-1)^2`. -/

/-- `r` is the list of prime factors of `n` in non-decreasing order. -/
def IsFactorisation (r : List UBig) (n : Nat) : Prop :=
  (∀ x ∈ r, Valid x ∧ (val x).Prime) ∧ (r.map val).Pairwise (· ≤ ·) ∧ (r.map val).prod = n

theorem isFactorisation_map {l : List Nat} {n : Nat} (h1 : l.Pairwise (· ≤ ·))
    (h2 : ∀ p ∈ l, p.Prime) (h3 : l.prod = n) : IsFactorisation (l.map ofNat) n := by
  have e : (l.map ofNat).map val = l := by
    rw [List.map_map]
    conv_rhs => rw [← List.map_id l]
    exact List.map_congr_left fun x _ => val_ofNat x
  refine ⟨?_, by rw [e]; exact h1, by rw [e]; exact h3⟩
  intro x hx
  obtain ⟨p, hp, rfl⟩ := List.mem_map.mp hx
  exact ⟨valid_ofNat p, by rw [val_ofNat]; exact h2 p hp⟩

/-- Whenever `prime_factorial` does not panic the returned list is the
factorisation; it never loops forever. -/
theorem C13_prime_factorial_returned {a : UBig} (ha : Valid a) (hl : a.length ≤ 2 ^ 32)
    (h2 : 2 ≤ val a) : Panics (prime_factorial a) ∨
      ∃ r, prime_factorial a = pure r ∧ IsFactorisation r (val a) := by
  rw [ha.eq_ofNat] at hl ⊢
  rw [val_ofNat]
  rcases prime_factorial_or (val a) h2 hl with h | ⟨l, e, h1, h2, h3⟩
  · exact .inl h.1
  · exact .inr ⟨_, e, isFactorisation_map h1 h2 h3⟩

example : Panics (prime_factorial [0, 0, 6]) ∨
    ∃ r, prime_factorial [0, 0, 6] = pure r ∧ IsFactorisation r (val [0, 0, 6]) :=
  C13_prime_factorial_returned (by decide) (by decide) (by decide)

/-- `prime_factorial` is right and total below `(2^32-1)^2`. -/
theorem C13_prime_factorial_partial {a : UBig} (ha : Valid a) (h2 : 2 ≤ val a)
    (hb : val a < (2 ^ 32 - 1) ^ 2) :
    ∃ r, prime_factorial a = pure r ∧ IsFactorisation r (val a) := by
  have hl : a.length ≤ 2 ^ 32 := by
    rw [ha.eq_ofNat]
    have := (length_ofNat_le_iff (n := val a) (k := 2) (by omega)).mpr (by omega)
    omega
  rw [ha.eq_ofNat] at hl ⊢
  rw [val_ofNat]
  rcases prime_factorial_or (val a) h2 hl with h | ⟨l, e, h1, h2, h3⟩
  · omega
  · exact ⟨_, e, isFactorisation_map h1 h2 h3⟩

example : ∃ r, prime_factorial [4294967295, 3294967295] = pure r ∧
    IsFactorisation r (val [4294967295, 3294967295]) :=
  C13_prime_factorial_partial (by decide) (by decide) (by decide)

/-- Every prime of at least `(2^32-1)^2` makes `prime_factorial` panic. -/
theorem C13_prime_factorial_counterexample {a : UBig} (ha : Valid a) (hl : a.length ≤ 2 ^ 32)
    (hp : (val a).Prime) (hb : (2 ^ 32 - 1) ^ 2 ≤ val a) : Panics (prime_factorial a) := by
  rw [ha.eq_ofNat] at hl ⊢
  exact prime_factorial_prime_panics (val a) hp (by simpa using hb) hl

theorem prime_mersenne89 : (mersenne 89).Prime :=
  lucas_lehmer_sufficiency _ (by simp) (by norm_num)

/-- the Mersenne prime `2^89 - 1` -/
example : Panics (prime_factorial [4294967295, 4294967295, 33554431]) := by
  refine C13_prime_factorial_counterexample (by decide) (by decide) ?_ (by decide)
  have : val [4294967295, 4294967295, 33554431] = mersenne 89 := by
    rw [mersenne]; decide
  rw [this]; exact prime_mersenne89

/-- The exact condition: `prime_factorial` panics on the numbers that have a divisor of at least
`(2^32-1)^2` without prime factors below `2^32`, and on no others. -/
theorem C13_prime_factorial_panic_iff {a : UBig} (ha : Valid a) (hl : a.length ≤ 2 ^ 32) (h2 : 2 ≤ val a) :
    Panics (prime_factorial a) ↔
      ∃ r, r ∣ val a ∧ (2 ^ 32 - 1) ^ 2 ≤ r ∧ ∀ p, p.Prime → p ∣ r → 2 ^ 32 ≤ p := by
  rw [ha.eq_ofNat] at hl ⊢
  rw [val_ofNat]
  constructor
  · intro h
    by_contra hc
    refine prime_factorial_total h2 hl (fun r hr hrn => ?_) h
    by_contra hb
    exact hc ⟨r, hrn, by norm_num at hb ⊢; omega, fun p hp hpr => hr p hp hpr⟩
  · rintro ⟨r, hrn, hb, hr⟩
    exact prime_factorial_rough_panics (by omega) hl (fun p hp hpr => hr p hp hpr) (by norm_num at hb ⊢; omega) hrn

/-- every other number gets its factorisation -/
theorem C13_prime_factorial_exact {a : UBig} (ha : Valid a) (hl : a.length ≤ 2 ^ 32) (h2 : 2 ≤ val a)
    (h : ∀ r, r ∣ val a → (∀ p, p.Prime → p ∣ r → 2 ^ 32 ≤ p) → r < (2 ^ 32 - 1) ^ 2) :
    ∃ r, prime_factorial a = pure r ∧ IsFactorisation r (val a) := by
  rcases C13_prime_factorial_returned ha hl h2 with hp | hp
  · obtain ⟨r, h1, h3, h4⟩ := (C13_prime_factorial_panic_iff ha hl h2).1 hp
    exact absurd (h r h1 h4) (by omega)
  · exact hp

/-- `12 * 2^64` is above the bound of `C13_prime_factorial_partial`, but has small prime factors only. -/
example : ∃ r, prime_factorial [0, 0, 12] = pure r ∧ IsFactorisation r (val [0, 0, 12]) := by
  refine C13_prime_factorial_exact (by decide) (by decide) (by decide) (fun r h1 h2 => ?_)
  have hv : val [0, 0, 12] = 2 ^ 66 * 3 := by decide
  rw [hv] at h1
  suffices r = 1 by rw [this]; norm_num
  by_contra hc
  obtain ⟨p, hp, hpr⟩ := Nat.exists_prime_and_dvd hc
  have hb := h2 p hp hpr
  rcases (hp.dvd_mul).1 (dvd_trans hpr h1) with h | h
  · have := Nat.le_of_dvd (by norm_num) (hp.dvd_of_dvd_pow h); omega
  · have := Nat.le_of_dvd (by norm_num) h; omega

/-- the square of the Mersenne prime `2^61 - 1` times 6 -/
example : Panics (prime_factorial (ofNat (6 * (2 ^ 61 - 1) ^ 2))) := by
  have hp : (2 ^ 61 - 1 : Nat).Prime := lucas_lehmer_sufficiency 61 (by norm_num) (by norm_num)
  have hl : (ofNat (6 * (2 ^ 61 - 1) ^ 2)).length ≤ 2 ^ 32 :=
    le_trans ((length_ofNat_le_iff (k := 4) (by norm_num)).2 (by norm_num)) (by norm_num)
  refine (C13_prime_factorial_panic_iff (valid_ofNat _) hl (by rw [val_ofNat]; norm_num)).2
    ⟨(2 ^ 61 - 1) ^ 2, by rw [val_ofNat]; exact ⟨6, by ring⟩, by norm_num, fun p hq h => ?_⟩
  rw [(Nat.prime_dvd_prime_iff_eq hq hp).1 (hq.dvd_of_dvd_pow h)]
  norm_num

/-! ## C14 factorials and Fibonacci numbers -/

theorem C14_factorial {n : Nat} (hn : n < 2 ^ 32) :
    Computes (factorial n) (Nat.factorial n) :=
  ⟨_, factorial_eq n hn, valid_ofNat _, val_ofNat _⟩

example : Computes (factorial 100000) (Nat.factorial 100000) := C14_factorial (by norm_num)
example : Computes (factorial 30) 265252859812191058636308480000000 := by
  have := C14_factorial (n := 30) (by norm_num)
  rwa [show Nat.factorial 30 = 265252859812191058636308480000000 by norm_num [Nat.factorial]] at this

theorem C14_fibonacci (n : Nat) : Computes (fibonacci n) (Nat.fib n) :=
  ⟨_, fibonacci_eq n, valid_ofNat _, val_ofNat _⟩

example : Computes (fibonacci 100000) (Nat.fib 100000) := C14_fibonacci _

end Props
end Hmath
