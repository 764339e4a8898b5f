import Mathlib.Data.Nat.Factorial.Basic
import Mathlib.Data.Nat.Fib.Basic
import Mathlib.Tactic.NormNum.NatFib
import Mathlib.Tactic.NormNum.NatFactorial
import Mathlib.Tactic.IntervalCases
import Verif.Model.Funcs
import Verif.Proofs.Canon

/-!
# `factorial` and `fibonacci`
-/

namespace Hmath
namespace UBig

open Nat

theorem factLoop64_eq (k i : Nat) (h : (i + k)! < B64) :
    factLoop64 k (i + 1) i ! = pure (i + k)! := by
  induction k generalizing i with
  | zero => rfl
  | succ k ih =>
    have h1 : i ! * (i + 1) = (i + 1)! := by rw [Nat.factorial_succ]; ring
    have h2 : (i + 1)! ≤ (i + (k + 1))! := Nat.factorial_le (by omega)
    rw [factLoop64, u64Mul, uMul_eq (by rw [h1]; omega), pure_bind, h1, ih (i + 1) (by rw [show i + 1 + k = i + (k + 1) by ring]; exact h)]
    rw [show i + 1 + k = i + (k + 1) by ring]

theorem factLoopInt_eq (k i m buf : Nat) (hb0 : 0 < buf) (hb : buf ≤ 0x1000000)
    (hi : i + k < 129) (hm : m * buf = i !) :
    ∃ m' buf', factLoopInt k (i + 1) (ofNat m) buf = pure (ofNat m', buf') ∧ 0 < buf' ∧
      buf' ≤ 0x1000000 ∧ m' * buf' = (i + k)! := by
  induction k generalizing i m buf with
  | zero => exact ⟨m, buf, rfl, hb0, hb, hm⟩
  | succ k ih =>
    have h1 : buf * (i + 1) ≤ 0x1000000 * 128 := Nat.mul_le_mul hb (by omega)
    have h2 : m * (buf * (i + 1)) = (i + 1)! := by rw [Nat.factorial_succ, ← hm]; ring
    have h3 : 0 < buf * (i + 1) := by positivity
    have e : i + (k + 1) = i + 1 + k := by ring
    rw [factLoopInt, Nat.mod_eq_of_lt (by omega), u32Mul, uMul_eq (by omega), pure_bind]
    split
    · rw [mul_u32_mut_c (by omega), pure_bind]
      rw [e]
      exact ih (i + 1) _ 1 (by omega) (by omega) (by omega) (by rw [mul_one]; exact h2)
    · rw [e]
      exact ih (i + 1) _ _ h3 (by omega) (by omega) h2

theorem factLoopBig_eq (k i m buf : Nat) (hi : i + k < B32) (hm : m * buf = i !) :
    ∃ m' buf', factLoopBig k (i + 1) (ofNat m) (ofNat buf) = pure (ofNat m', ofNat buf') ∧
      m' * buf' = (i + k)! := by
  induction k generalizing i m buf with
  | zero => exact ⟨m, buf, rfl, hm⟩
  | succ k ih =>
    have h2 : m * (buf * (i + 1)) = (i + 1)! := by rw [Nat.factorial_succ, ← hm]; ring
    have e : i + (k + 1) = i + 1 + k := by ring
    rw [factLoopBig, Nat.mod_eq_of_lt (by omega), mul_u32_mut_c (by omega), pure_bind, e]
    split
    · rw [mul_mut_c, pure_bind, show one = ofNat 1 from ofNat_one.symm]
      exact ih (i + 1) _ 1 (by omega) (by rw [mul_one]; exact h2)
    · exact ih (i + 1) _ _ (by omega) h2

theorem fact20 : ofNat (20 !) = [2192834560, 566454140] := by
  have h : Valid [2192834560, 566454140] := by decide
  rw [h.eq_ofNat]; congr 1

theorem fact128 : ofNat (128 !) = [0, 0, 0, 2147483648, 1653232837,
       595720861, 948844160, 1991672462,
       2500910141, 2421394908, 1199558731,
       684006397, 4097118094, 3861115933,
       3624737256, 703871983, 1875727135,
       2498653150, 380736459, 2256750694,
       3845178240, 3753984225, 4581] := by
  have h : Valid [0, 0, 0, 2147483648, 1653232837,
       595720861, 948844160, 1991672462,
       2500910141, 2421394908, 1199558731,
       684006397, 4097118094, 3861115933,
       3624737256, 703871983, 1875727135,
       2498653150, 380736459, 2256750694,
       3845178240, 3753984225, 4581] := by decide
  rw [h.eq_ofNat]; refine congrArg ofNat ?_
  simp only [val, Nat.ofDigits_cons, Nat.ofDigits_nil]
  norm_num [Nat.factorial]

theorem factorial_eq (n : Nat) (hn : n < B32) : factorial n = pure (ofNat n !) := by
  unfold factorial
  by_cases h1 : n < 21
  · rw [if_pos h1]
    by_cases h0 : n = 0
    · subst h0; simp [factLoop64, from_u64, ofNat_one]
    · have h20 : n ! ≤ 20 ! := Nat.factorial_le (by omega)
      have hl : (20 !) < B64 := by decide
      have h3 : factLoop64 (n - 1) 2 1 = pure (1 + (n - 1))! :=
        factLoop64_eq (n - 1) 1 (by rw [show 1 + (n - 1) = n by omega]; omega)
      rw [show n + 1 - 2 = n - 1 by omega, h3, pure_bind, show 1 + (n - 1) = n by omega,
        from_u64_eq (by omega)]
  · rw [if_neg h1]
    by_cases h2 : n < 129
    · rw [if_pos h2, ← fact20]
      obtain ⟨m, b, e, hb0, hb, hm⟩ := factLoopInt_eq (n - 20) 20 (20 !) 1 (by omega) (by omega)
        (by omega) (mul_one _)
      rw [show n + 1 - 21 = n - 20 by omega, e, pure_bind]
      rw [show 20 + (n - 20) = n by omega] at hm
      simp only
      split
      · rw [mul_u32_mut_c (by omega), hm]
      · rw [show b = 1 by omega, mul_one] at hm; rw [hm]
    · rw [if_neg h2, ← fact128, show one = ofNat 1 from ofNat_one.symm]
      have hgen : ∀ f : Nat, f = 128 ! → ∃ m' buf',
          factLoopBig (n - 128) (128 + 1) (ofNat f) (ofNat 1) = pure (ofNat m', ofNat buf') ∧
          m' * buf' = (128 + (n - 128))! := fun f hf =>
        factLoopBig_eq (n - 128) 128 f 1 (by omega) (by rw [mul_one, hf])
      obtain ⟨m, b, e, hm⟩ := hgen _ rfl
      rw [show n + 1 - 129 = n - 128 by omega, e, pure_bind]
      rw [show 128 + (n - 128) = n by omega] at hm
      simp only
      rw [mul_mut_c, hm]

theorem fibLoop128_eq (k i r : Nat) (hk : 0 < k) (h : fib (i + 1 + k) < B128) :
    fibLoop128 k (fib (i + 1)) (fib i) r = pure (fib (i + 1 + k)) := by
  induction k generalizing i r with
  | zero => omega
  | succ k ih =>
    have hf : fib (i + 1) + fib i = fib (i + 1 + 1) := by rw [Nat.fib_add_two]; ring
    have h2 : fib (i + 1 + 1) ≤ fib (i + 1 + (k + 1)) := Nat.fib_mono (by omega)
    rw [fibLoop128, u128Add, uAdd_eq (by omega), pure_bind, hf]
    by_cases hk0 : k = 0
    · subst hk0; rfl
    · rw [ih (i + 1) _ (by omega) (by rw [show i + 1 + 1 + k = i + 1 + (k + 1) by ring]; exact h),
        show i + 1 + 1 + k = i + 1 + (k + 1) by ring]

theorem fibLoopBig_eq (k i : Nat) (r : UBig) (hk : 0 < k) :
    fibLoopBig k (ofNat (fib (i + 1))) (ofNat (fib i)) r = pure (ofNat (fib (i + 1 + k))) := by
  induction k generalizing i r with
  | zero => omega
  | succ k ih =>
    have hf : fib (i + 1) + fib i = fib (i + 1 + 1) := by rw [Nat.fib_add_two]; ring
    rw [fibLoopBig, add_c, pure_bind, hf]
    by_cases hk0 : k = 0
    · subst hk0; rfl
    · rw [ih (i + 1) _ (by omega), show i + 1 + 1 + k = i + 1 + (k + 1) by ring]

theorem fib_vals : fib 186 = 332825110087067562321196029789634457848 ∧
    fib 185 = 205697230343233228174223751303346572685 ∧ fib 13 = 233 ∧ fib 14 = 377 ∧
    fib 12 = 144 := by
  refine ⟨?_, ?_, ?_, ?_, ?_⟩ <;> norm_num

theorem fib186 : ofNat (fib 186) = [858943736, 3366396219, 4196493967, 4200843481] := by
  have h : Valid [858943736, 3366396219, 4196493967, 4200843481] := by decide
  rw [h.eq_ofNat, fib_vals.1]; rfl

theorem fib185 : ofNat (fib 185) = [3883453837, 806826839, 1203823756, 2596264053] := by
  have h : Valid [3883453837, 806826839, 1203823756, 2596264053] := by decide
  rw [h.eq_ofNat, fib_vals.2.1]; rfl

theorem fibonacci_eq (n : Nat) : fibonacci n = pure (ofNat (fib n)) := by
  unfold fibonacci
  by_cases h1 : n < 14
  · rw [if_pos h1]
    have h2 : idx [0, 1, 1, 2, 3, 5, 8, 13, 21, 34, 55, 89, 144, 233] n = pure (fib n) := by
      interval_cases n <;> rfl
    have h3 : fib n ≤ fib 14 := Nat.fib_mono (by omega)
    rw [fib_vals.2.2.2.1] at h3
    rw [h2, pure_bind, from_u32_eq (by omega)]
  · rw [if_neg h1]
    by_cases h2 : n < 187
    · have h3 : fib n ≤ fib 186 := Nat.fib_mono (by omega)
      rw [fib_vals.1] at h3
      have h4 := fibLoop128_eq (n - 13) 12 0 (by omega)
        (by rw [show 12 + 1 + (n - 13) = n by omega]; omega)
      rw [show 12 + 1 + (n - 13) = n by omega, show 12 + 1 = 13 from rfl, fib_vals.2.2.1,
        fib_vals.2.2.2.2] at h4
      rw [if_pos h2, h4, pure_bind, from_u128_eq (by omega)]
    · rw [if_neg h2, ← fib186, ← fib185]
      have h4 := fibLoopBig_eq (n - 186) 185 zero (by omega)
      rw [show 185 + 1 + (n - 186) = n by omega] at h4
      exact h4

end UBig
end Hmath
