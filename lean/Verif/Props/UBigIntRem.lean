import Verif.Props.UBigInt
import Mathlib.Algebra.BigOperators.Intervals

/-!
# C05: where `rem_u32_mut` panics
-/

namespace Hmath
namespace Props

open UBig
open scoped BigOperators

/-- the power of the base as the loop has it -/
private def pw (o p i : Nat) : Nat := if i = 0 then p else p * 2 ^ (32 * i) % o

private theorem pw_succ (o p i : Nat) : pw o (p * (B32 % o) % o) i = pw o p (i + 1) := by
  unfold pw
  rw [if_neg (Nat.succ_ne_zero i)]
  have hb : B32 = 2 ^ 32 := rfl
  split
  · subst i
    simp [Nat.mul_mod, hb]
  · rw [Nat.mul_add, Nat.mul_one, pow_add, hb]
    simp only [Nat.mod_mul_mod, Nat.mul_mod_mod]
    congr 1
    ring

private def Bad (o p res : Nat) (ds : List Nat) (i : Nat) : Prop :=
  2 ^ 32 ≤ ds.getD i 0 % o * pw o p i ∨ 2 ^ 32 ≤ pw o p i * (2 ^ 32 % o) ∨
    2 ^ 32 ≤ res + ∑ j ∈ Finset.range (i + 1), ds.getD j 0 % o * pw o p j % o

private theorem loop_iff (o : Nat) (ho0 : 0 < o) (ds : List Nat) (p res : Nat) :
    remU32MutLoop o (B32 % o) ds p res = throw .overflow ↔ ∃ i, i < ds.length ∧ Bad o p res ds i := by
  have hb : B32 = 2 ^ 32 := rfl
  induction ds generalizing p res with
  | nil =>
    rw [remU32MutLoop]
    refine ⟨fun h => (nomatch h), fun ⟨i, h, _⟩ => absurd h (Nat.not_lt_zero _)⟩
  | cons d ds ih =>
    have hS : (∃ i, i < (d :: ds).length ∧ Bad o p res (d :: ds) i) ↔
        (2 ^ 32 ≤ d % o * p ∨ 2 ^ 32 ≤ p * (2 ^ 32 % o) ∨ 2 ^ 32 ≤ res + d % o * p % o) ∨
          ∃ i, i < ds.length ∧ Bad o (p * (B32 % o) % o) (res + d % o * p % o) ds i := by
      have key : ∀ i, Bad o p res (d :: ds) (i + 1) ↔ Bad o (p * (B32 % o) % o) (res + d % o * p % o) ds i := by
        intro i
        unfold Bad
        simp only [List.getD_cons_succ, pw_succ]
        rw [Finset.sum_range_succ' _ (i + 1)]
        simp only [List.getD_cons_succ, List.getD_cons_zero, pw, if_true]
        rw [← add_assoc, add_right_comm]
      have key0 : Bad o p res (d :: ds) 0 ↔ (2 ^ 32 ≤ d % o * p ∨ 2 ^ 32 ≤ p * (2 ^ 32 % o) ∨ 2 ^ 32 ≤ res + d % o * p % o) := by
        unfold Bad
        simp [pw]
      constructor
      · rintro ⟨i, h, hh⟩
        cases i with
        | zero => exact .inl (key0.1 hh)
        | succ i => exact .inr ⟨i, by simpa using h, (key i).1 hh⟩
      · rintro (h | ⟨i, h, hh⟩)
        · exact ⟨0, by simp, key0.2 h⟩
        · exact ⟨i + 1, by simpa using h, (key i).2 hh⟩
    rw [hS, remU32MutLoop, uRem_eq (by omega), pure_bind]
    rcases Nat.lt_or_ge (d % o * p) B32 with h1 | h1
    swap
    · rw [u32Mul, uMul, if_neg (by omega)]
      exact ⟨fun _ => .inl (.inl h1), fun _ => rfl⟩
    rw [u32Mul, uMul_eq h1, pure_bind, uRem_eq (by omega), pure_bind]
    rcases Nat.lt_or_ge (res + d % o * p % o) B32 with h2 | h2
    swap
    · rw [u32Add, uAdd, if_neg (by omega)]
      exact ⟨fun _ => .inl (.inr (.inr h2)), fun _ => rfl⟩
    rw [u32Add, uAdd_eq h2, pure_bind]
    rcases Nat.lt_or_ge (p * (B32 % o)) B32 with h3 | h3
    swap
    · rw [uMul, if_neg (by omega)]
      exact ⟨fun _ => .inl (.inr (.inl h3)), fun _ => rfl⟩
    rw [uMul_eq h3, pure_bind, uRem_eq (by omega), pure_bind]
    refine (ih _ _).trans ⟨.inr, fun h => h.resolve_left ?_⟩
    rw [hb] at h1 h2 h3
    omega

/-- `rem_u32_mut` panics exactly if one of the products of a limb and the residue of the base, of the next residue, or the sum of the residues so far does
not fit into 32 bits. -/
theorem C05_rem_u32_mut_panic_iff (a : UBig) {o : Nat} (ho : o < 2 ^ 32) (ho0 : o ≠ 0) :
    Panics (rem_u32_mut a o) ↔ ∃ i, i < a.length ∧
      (2 ^ 32 ≤ a.getD i 0 % o * (2 ^ (32 * i) % o) ∨ 2 ^ 32 ≤ 2 ^ (32 * i) % o * (2 ^ 32 % o) ∨
        2 ^ 32 ≤ ∑ j ∈ Finset.range (i + 1), a.getD j 0 * 2 ^ (32 * j) % o) := by
  have hp := Nat.pos_of_ne_zero ho0
  have hb : B32 = 2 ^ 32 := rfl
  have hu := Nat.mod_lt B32 hp
  have e : rem_u32_mut a o = remU32MutLoop o (B32 % o) a 1 0 >>= fun r => uRem r o >>= fun r => pure (from_u32 r) := by
    rw [rem_u32_mut, uRem_eq (by omega), pure_bind, Nat.mod_eq_of_lt (b := B32) (by omega)]
  have h1 : Panics (rem_u32_mut a o) ↔ remU32MutLoop o (B32 % o) a 1 0 = throw .overflow := by
    constructor
    · intro h
      rcases C05_rem_u32_mut_returned a ho ho0 with _ | hc
      · rw [e] at h
        obtain ⟨p, hq⟩ := h
        cases hl : remU32MutLoop o (B32 % o) a 1 0 with
        | none => rw [hl] at hq; cases hq
        | some r =>
          cases r with
          | error q =>
            rcases remU32MutLoop_or o hp a 1 0 with h | ⟨r, h, -⟩
            · rw [← hl, h]
            · rw [hl] at h; cases h
          | ok r =>
            rw [hl] at hq
            exfalso
            have hh : (uRem r o >>= fun r => pure (from_u32 r) : M UBig) = throw p := hq
            rw [uRem_eq (by omega), pure_bind] at hh
            cases hh
      · obtain ⟨z, hz, -⟩ := hc
        obtain ⟨p, hq⟩ := h
        rw [hz] at hq
        cases hq
    · intro h
      exact ⟨.overflow, by rw [e, h]; rfl⟩
  rw [h1, loop_iff o hp]
  by_cases h1 : o = 1
  · subst h1
    refine exists_congr fun i => and_congr_right fun _ => ?_
    unfold Bad
    simp [Nat.mod_one]
  · have hpw : ∀ i, pw o 1 i = 2 ^ (32 * i) % o := by
      intro i
      unfold pw
      split
      · subst i
        rw [Nat.mul_zero, pow_zero, Nat.mod_eq_of_lt (by omega)]
      · rw [Nat.one_mul]
    refine exists_congr fun i => and_congr_right fun _ => ?_
    unfold Bad
    simp only [hpw, Nat.zero_add]
    simp only [← Nat.mul_mod]

/-- the two-limb number of `C05_rem_u32_mut_overflow`, and a number of two limbs that does not panic with the same modulus -/
example : Panics (rem_u32_mut [0, 4294967290] 4294967291) ∧ ¬Panics (rem_u32_mut [7, 3] 4294967291) := by
  rw [C05_rem_u32_mut_panic_iff _ (by norm_num) (by norm_num), C05_rem_u32_mut_panic_iff _ (by norm_num) (by norm_num)]
  constructor
  · exact ⟨1, by decide, by decide⟩
  · rintro ⟨i, h, hh⟩
    have : i = 0 ∨ i = 1 := by simp at h; omega
    rcases this with rfl | rfl
    · exact absurd hh (by decide)
    · exact absurd hh (by decide)

end Props
end Hmath
