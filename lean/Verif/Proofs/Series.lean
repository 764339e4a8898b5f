import Verif.Model.Series
import Verif.Spec.Series
import Verif.Proofs.Matrix
import Verif.Proofs.FactFib
import Verif.Proofs.Log
import Verif.Proofs.Sqrt

/-!
# The iterative functions compute the partial sums
-/

namespace Hmath
open Finset Nat
namespace Ratio

theorem asI32_of_lt {n : Nat} (h : n < 2147483648) : asI32 n = n := by
  unfold asI32; omega

theorem i32_nat {n : Nat} (h : n < 2147483648) : IsI32 (n : Int) := by unfold IsI32; omega

theorem i32Add_eq {a b : Int} (h1 : -2147483648 ≤ a + b) (h2 : a + b ≤ 2147483647) :
    i32Add a b = pure (a + b) := if_pos ⟨h1, h2⟩

theorem mul_asI32 (x : Int) {n : Nat} (h : n < 2147483648) :
    BigI.mul_i32_mut (ofInt x) (asI32 n) = pure (ofInt (x * n)) := by
  rw [asI32_of_lt h, BigI.mul_i32_mut_c (i32_nat h) (by omega)]

theorem div_asI32 (x : ℚ) {n : Nat} (h : n < 2147483648) (h0 : n ≠ 0) :
    (ofRat x).div_i32 (asI32 n) = pure (ofRat (x / n)) := by
  rw [asI32_of_lt h, div_i32_c _ (i32_nat h) (by omega) (by omega), Int.cast_natCast]

theorem div_asI32_mut (x : ℚ) {n : Nat} (h : n < 2147483648) (h0 : n ≠ 0) :
    (ofRat x).div_i32_mut (asI32 n) = pure (ofRat (x / n)) := by
  rw [asI32_of_lt h, div_i32_mut_c _ (i32_nat h) (by omega) (by omega), Int.cast_natCast]

theorem mul_r_asI32_mut (x : ℚ) {n : Nat} (h : n < 2147483648) :
    (ofRat x).mul_i32_mut (asI32 n) = pure (ofRat (x * n)) := by
  rw [asI32_of_lt h, mul_i32_mut_c _ (i32_nat h) (by omega), Int.cast_natCast]

theorem div_nat_i32 (x : ℚ) {n : Nat} (h : n < 2147483648) (h0 : n ≠ 0) :
    (ofRat x).div_i32 (n : Int) = pure (ofRat (x / n)) := by
  rw [div_i32_c _ (i32_nat h) (by omega) (by omega), Int.cast_natCast]

theorem div_nat_i32_mut (x : ℚ) {n : Nat} (h : n < 2147483648) (h0 : n ≠ 0) :
    (ofRat x).div_i32_mut (n : Int) = pure (ofRat (x / n)) := by
  rw [div_i32_mut_c _ (i32_nat h) (by omega) (by omega), Int.cast_natCast]

theorem fac_ne (n : Nat) : (n ! : ℚ) ≠ 0 := by exact_mod_cast n.factorial_ne_zero

theorem factorial_c (n : Nat) (hn : n < B32) : BigI.factorial n = pure (ofInt (n ! : Nat)) := by
  rw [BigI.factorial, UBig.factorial_eq n hn, pure_bind, BigI.from_ubi_nat]

/-! ## e -/

/-- `n! Σ_{i ≤ n} 1/i!` as an integer -/
def eNum : Nat → Nat
  | 0 => 1
  | n + 1 => eNum n * (n + 1) + 1

theorem eNum_eq (n : Nat) : (eNum n : ℚ) / (n ! : ℚ) = expSum (n + 1) 1 := by
  induction n with
  | zero => simp [eNum, expSum]
  | succ n ih =>
    rw [expSum, Finset.sum_range_succ, ← expSum, ← ih, eNum, Nat.factorial_succ]
    have h1 := fac_ne n
    have h2 : ((n : ℚ) + 1) ≠ 0 := by positivity
    push_cast
    rw [one_pow]
    field_simp

theorem e_iter_c {k : Nat} (hk : k ≤ 2147483627) : e_iter k = pure (ofRat (expSum (k + 20) 1)) := by
  have e0 : (330665665962404000 : Int) = ((eNum 19 : Nat) : Int) := by decide +kernel
  have key := foldlM_range (fun t => ((ofInt ((eNum (19 + t) : Nat) : Int), ((20 + t : Nat) : Int)) : BigI × Int))
    eStep k ?_
  · rw [e_iter, BigI.from_i64_c (by omega) (by omega), pure_bind, e0]
    have e1 : (ofInt ((eNum 19 : Nat) : Int), (20 : Int))
      = (ofInt ((eNum (19 + 0) : Nat) : Int), ((20 + 0 : Nat) : Int)) := rfl
    rw [e1, key, pure_bind]
    show (uSub ((((20 + k : Nat) : Int)) % 4294967296).toNat 1 >>= _) = _
    have e2 : ((((20 + k : Nat) : Int)) % 4294967296).toNat = 20 + k := by omega
    rw [e2, uSub_eq (by omega), pure_bind, factorial_c _ (by omega), pure_bind]
    show from_denom_and_numer _ (ofInt ((eNum (19 + k) : Nat) : Int)) = _
    refine from_dn_c ?_ ?_
    · exact_mod_cast Nat.factorial_ne_zero _
    · rw [show k + 20 = (19 + k) + 1 by omega, ← eNum_eq, show 20 + k - 1 = 19 + k by omega]
      push_cast
      rfl
  · intro t ht
    rw [eStep]
    simp only []
    rw [BigI.mul_i32_mut_c (i32_nat (by omega)) (by omega), pure_bind,
      BigI.add_i32_mut_c isI32_one (by omega), pure_bind, i32Add_eq (by omega) (by omega), pure_bind]
    refine congrArg pure (Prod.ext (congrArg ofInt ?_) ?_)
    · show _ = (((eNum (19 + t) * (19 + t + 1) + 1) : Nat) : Int)
      push_cast
      ring
    · push_cast; ring

theorem foldlM_range_throw {σ : Type} (S : Nat → σ) (f : σ → Nat → M σ) (n : Nat) (p : Panic)
    (h : ∀ i < n, f (S i) i = pure (S (i + 1))) (ht : f (S n) n = throw p) (m : Nat) (hm : n < m) :
    (List.range m).foldlM f (S 0) = throw p := by
  induction m with
  | zero => omega
  | succ m ih =>
    rw [List.range_succ, List.foldlM_append]
    rcases Nat.lt_or_ge n m with hl | hl
    · rw [ih hl]; rfl
    · obtain rfl : m = n := by omega
      rw [foldlM_range S f m h, pure_bind, List.foldlM_cons, ht]
      rfl

/-- the `i32` loop counter of `e_iter` overflows -/
theorem e_iter_big {k : Nat} (hk : 2147483627 < k) : e_iter k = throw .overflow := by
  have e0 : (330665665962404000 : Int) = ((eNum 19 : Nat) : Int) := by decide +kernel
  obtain ⟨N, hN⟩ : ∃ N, N = 2147483627 := ⟨_, rfl⟩
  rw [← hN] at hk
  have hm : ∀ t ≤ N, BigI.mul_i32_mut (ofInt ((eNum (19 + t) : Nat) : Int)) ((20 + t : Nat) : Int)
      = pure (ofInt ((eNum (19 + t) : Nat) * (20 + t : Nat))) := fun t ht =>
    BigI.mul_i32_mut_c (i32_nat (by omega)) (by omega)
  have key := foldlM_range_throw
    (fun t => ((ofInt ((eNum (19 + t) : Nat) : Int), ((20 + t : Nat) : Int)) : BigI × Int))
    eStep N .overflow ?_ ?_ k hk
  · rw [e_iter, BigI.from_i64_c (by omega) (by omega), pure_bind, e0]
    have e1 : (ofInt ((eNum 19 : Nat) : Int), (20 : Int))
      = (ofInt ((eNum (19 + 0) : Nat) : Int), ((20 + 0 : Nat) : Int)) := rfl
    rw [e1, key]
    rfl
  · intro t ht
    rw [eStep]
    simp only []
    rw [hm t (by omega), pure_bind,
      BigI.add_i32_mut_c isI32_one (by omega), pure_bind, i32Add_eq (by omega) (by omega), pure_bind]
    refine congrArg pure (Prod.ext (congrArg ofInt ?_) ?_)
    · show _ = (((eNum (19 + t) * (19 + t + 1) + 1) : Nat) : Int)
      push_cast
      ring
    · push_cast; ring
  · rw [eStep]
    simp only []
    rw [hm N (by omega), pure_bind, BigI.add_i32_mut_c isI32_one (by omega), pure_bind, i32Add, if_neg (by omega)]
    rfl

/-! ## pi -/

theorem pi_table_ok : ∀ e ∈ PI_TABLE.zipIdx, 0 < e.1.1 ∧ 0 < e.1.2 ∧ e.1.1 < 2 ^ 126 ∧ e.1.2 < 2 ^ 126 ∧
    Int.gcd e.1.1 e.1.2 = 1 ∧
    (e.1.1 : ℚ) / e.1.2 = (4 / (8 * (2 * e.2 + 2 : Nat) + 1) - 2 / (8 * (2 * e.2 + 2 : Nat) + 4)
      - 1 / (8 * (2 * e.2 + 2 : Nat) + 5) - 1 / (8 * (2 * e.2 + 2 : Nat) + 6))
      + (4 / (8 * (2 * e.2 + 3 : Nat) + 1) - 2 / (8 * (2 * e.2 + 3 : Nat) + 4)
      - 1 / (8 * (2 * e.2 + 3 : Nat) + 5) - 1 / (8 * (2 * e.2 + 3 : Nat) + 6)) / 16 := by
  decide +kernel

theorem pi_table_length : PI_TABLE.length = 255 := by decide +kernel

theorem zipIdx_mem {α : Type} {l : List α} {i : Nat} (h : i < l.length) : (l[i], i) ∈ l.zipIdx := by
  rw [List.mem_zipIdx_iff_getElem?]
  simp [h]

theorem pi_iter_c {k : Nat} (hk : k ≤ 255) : pi_iter k = pure (ofRat (bbpSum (2 * k + 2))) := by
  have i256 : IsI32 256 := by unfold IsI32; omega
  have key := foldlM_range (fun t => ((ofRat (bbpSum (2 * t + 2)), ofRat (1 / 256 ^ (t + 1))) : Ratio × Ratio))
    piStep k ?_
  · rw [pi_iter, from_dn_i32_c i256 isI32_one (by omega) (by omega) (by omega), pure_bind,
      from_dn_i32_c (by unfold IsI32; omega) (by unfold IsI32; omega) (by omega) (by omega) (by omega),
      pure_bind]
    have e1 : (ofRat (((0x19201 : Int) : ℚ) / ((0x7ff8 : Int) : ℚ)), ofRat (((1 : Int) : ℚ) / ((256 : Int) : ℚ)))
      = (ofRat (bbpSum (2 * 0 + 2)), ofRat (1 / 256 ^ (0 + 1))) := by
      refine Prod.ext (congrArg ofRat ?_) (congrArg ofRat ?_)
      · simp only [bbpSum, Finset.sum_range_succ, Finset.sum_range_zero]; norm_num
      · norm_num
    rw [e1, key, pure_bind]
  · intro t ht
    have ht' : t < PI_TABLE.length := by rw [pi_table_length]; omega
    obtain ⟨h1, h2, h3, h4, h5, h6⟩ := pi_table_ok _ (zipIdx_mem ht')
    simp only [] at h1 h2 h3 h4 h5 h6
    rw [piStep, idx_eq ht', pure_bind]
    generalize PI_TABLE[t] = e at *
    obtain ⟨n, d⟩ := e
    simp only [] at *
    rw [BigI.from_i128_c (by omega) (by omega), pure_bind, BigI.from_i128_c (by omega) (by omega), pure_bind,
      from_denom_and_numer_raw, mk_c h2 h5 rfl, Ratio.mul_c, pure_bind, Ratio.add_mut_c, pure_bind,
      div_i32_mut_c _ i256 (by omega) (by omega), pure_bind]
    refine congrArg pure (Prod.ext (congrArg ofRat ?_) (congrArg ofRat ?_))
    · rw [h6, show 2 * (t + 1) + 2 = 2 * t + 2 + 1 + 1 by ring, bbpSum, bbpSum, Finset.sum_range_succ _ (2 * t + 2 + 1),
        Finset.sum_range_succ _ (2 * t + 2)]
      have e16 : (16 : ℚ) ^ (2 * t + 2) = 256 ^ (t + 1) := by
        rw [show 2 * t + 2 = 2 * (t + 1) by ring, pow_mul]; norm_num
      rw [pow_succ (16 : ℚ) (2 * t + 2), e16, show 2 * t + 2 + 1 = 2 * t + 3 by ring]
      field_simp
      ring
    · push_cast
      rw [pow_succ (256 : ℚ) (t + 1)]
      field_simp

theorem pi_iter_big {k : Nat} (hk : 255 < k) : pi_iter k = throw .index := by
  obtain ⟨m, rfl⟩ : ∃ m, k = 256 + m := ⟨k - 256, by omega⟩
  have h := pi_iter_c (le_refl 255)
  rw [pi_iter] at h ⊢
  have i256 : IsI32 256 := by unfold IsI32; omega
  rw [from_dn_i32_c i256 isI32_one (by omega) (by omega) (by omega), pure_bind,
      from_dn_i32_c (by unfold IsI32; omega) (by unfold IsI32; omega) (by omega) (by omega) (by omega),
      pure_bind] at h ⊢
  have hr : List.range (256 + m) = List.range 255 ++ (255 :: (List.range m).map (256 + ·)) := by
    rw [show (256 : Nat) + m = 255 + (1 + m) by omega, List.range_add, Nat.add_comm 1 m]
    refine congrArg (List.range 255 ++ ·) ?_
    rw [List.range_succ_eq_map, List.map_cons, List.map_map]
    refine congrArg (255 :: ·) (List.map_congr_left fun a _ => ?_)
    simp only [Function.comp]
    omega
  rw [hr, List.foldlM_append]
  generalize hX : List.foldlM piStep _ (List.range 255) = X at *
  cases X with
  | none => exact absurd h (by intro h; cases h)
  | some X =>
    cases X with
    | error e => exact absurd h (by intro h; cases h)
    | ok s =>
      show (List.foldlM piStep s _ >>= _) = _
      rw [List.foldlM_cons]
      have : piStep s 255 = throw .index := by
        rw [piStep, idx]
        have : PI_TABLE[255]? = none := by decide +kernel
        rw [this]
        rfl
      rw [this]
      rfl

/-! ## ln 2 -/

theorem ln2_table_ok : ∀ e ∈ LN2_TABLE.zipIdx, 0 < e.1.1 ∧ 0 < e.1.2 ∧
    e.1.1 ≤ 9223372036854775807 ∧ e.1.2 ≤ 9223372036854775807 ∧ Int.gcd e.1.2 e.1.1 = 1 ∧
    (e.1.2 : ℚ) / e.1.1 = 1 / ((6 * e.2 + 13 : Nat) * 2) + 1 / ((6 * e.2 + 14 : Nat) * 4)
      + 1 / ((6 * e.2 + 15 : Nat) * 8) + 1 / ((6 * e.2 + 16 : Nat) * 16)
      + 1 / ((6 * e.2 + 17 : Nat) * 32) + 1 / ((6 * e.2 + 18 : Nat) * 64) := by
  decide +kernel

theorem ln2_table_length : LN2_TABLE.length = 205 := by decide +kernel

theorem ln2Sum_succ (n : Nat) : ln2Sum (n + 1) = ln2Sum n + 1 / ((n + 1) * 2 ^ (n + 1)) := by
  rw [ln2Sum, Finset.sum_range_succ, ← ln2Sum]

theorem ln2Sum_six (n : Nat) : ln2Sum (n + 6) = ln2Sum n + (1 / ((n + 1) * 2) + 1 / ((n + 2) * 4)
    + 1 / ((n + 3) * 8) + 1 / ((n + 4) * 16) + 1 / ((n + 5) * 32) + 1 / ((n + 6) * 64)) / 2 ^ n := by
  rw [show n + 6 = n + 1 + 1 + 1 + 1 + 1 + 1 by ring]
  simp only [ln2Sum_succ, pow_succ (2 : ℚ) _]
  push_cast
  generalize (2 : ℚ) ^ n = P
  simp only [one_div, mul_inv]
  ring

theorem ln2_iter_c {k : Nat} (hk : k ≤ 205) : ln2_iter k = pure (ofRat (ln2Sum (6 * k + 12))) := by
  have key := foldlM_range (fun t => ((ofRat (ln2Sum (6 * t + 12)), ofInt (64 ^ (t + 2))) : Ratio × BigI))
    ln2Step k ?_
  · rw [ln2_iter, from_dn_i32_c (by unfold IsI32; omega) (by unfold IsI32; omega) (by omega) (by omega) (by omega),
      pure_bind, BigI.from_i64_c (by omega) (by omega), pure_bind]
    have e1 : (ofRat (((7869871 : Int) : ℚ) / ((11354112 : Int) : ℚ)), ofInt 4096)
      = (ofRat (ln2Sum (6 * 0 + 12)), ofInt (64 ^ (0 + 2))) := by
      refine Prod.ext (congrArg ofRat ?_) (congrArg ofInt ?_)
      · simp only [ln2Sum, Finset.sum_range_succ, Finset.sum_range_zero]; norm_num
      · norm_num
    rw [e1, key, pure_bind]
  · intro t ht
    have ht' : t < LN2_TABLE.length := by rw [ln2_table_length]; omega
    obtain ⟨h1, h2, h3, h4, h5, h6⟩ := ln2_table_ok _ (zipIdx_mem ht')
    simp only [] at h1 h2 h3 h4 h5 h6
    rw [ln2Step, idx_eq ht', pure_bind]
    generalize LN2_TABLE[t] = e at *
    obtain ⟨d, n⟩ := e
    simp only [] at *
    have i64 : IsI32 64 := by unfold IsI32; omega
    rw [BigI.from_i64_c (by omega) (by omega), pure_bind, BigI.from_i64_c (by omega) (by omega), pure_bind,
      from_denom_and_numer_raw, mk_c h1 h5 rfl, div_bi_c _ (by positivity), pure_bind, Ratio.add_mut_c, pure_bind,
      BigI.mul_i32_mut_c i64 (by omega), pure_bind]
    refine congrArg pure (Prod.ext (congrArg ofRat ?_) (congrArg ofInt ?_))
    · have e64 : (2 : ℚ) ^ (6 * t + 12) = 64 ^ (t + 2) := by
        rw [show 6 * t + 12 = 6 * (t + 2) by ring, pow_mul]; norm_num
      rw [h6, show 6 * (t + 1) + 12 = 6 * t + 12 + 6 by ring, ln2Sum_six (6 * t + 12), e64]
      push_cast
      generalize (64 : ℚ) ^ (t + 2) = P
      simp only [one_div, mul_inv]
      ring
    · ring


theorem ln2_iter_big {k : Nat} (hk : 205 < k) : ln2_iter k = throw .index := by
  obtain ⟨m, rfl⟩ : ∃ m, k = 206 + m := ⟨k - 206, by omega⟩
  have h := ln2_iter_c (le_refl 205)
  rw [ln2_iter] at h ⊢
  rw [from_dn_i32_c (by unfold IsI32; omega) (by unfold IsI32; omega) (by omega) (by omega) (by omega),
      pure_bind, BigI.from_i64_c (by omega) (by omega), pure_bind] at h ⊢
  have hr : List.range (206 + m) = List.range 205 ++ (205 :: (List.range m).map (206 + ·)) := by
    rw [show (206 : Nat) + m = 205 + (1 + m) by omega, List.range_add, Nat.add_comm 1 m]
    refine congrArg (List.range 205 ++ ·) ?_
    rw [List.range_succ_eq_map, List.map_cons, List.map_map]
    refine congrArg (205 :: ·) (List.map_congr_left fun a _ => ?_)
    simp only [Function.comp]
    omega
  rw [hr, List.foldlM_append]
  generalize hX : List.foldlM ln2Step _ (List.range 205) = X at *
  cases X with
  | none => exact absurd h (by intro h; cases h)
  | some X =>
    cases X with
    | error e => exact absurd h (by intro h; cases h)
    | ok s =>
      show (List.foldlM ln2Step s _ >>= _) = _
      rw [List.foldlM_cons]
      have : ln2Step s 205 = throw .index := by
        rw [ln2Step, idx]
        have : LN2_TABLE[205]? = none := by decide +kernel
        rw [this]
        rfl
      rw [this]
      rfl

/-! ## the exponential series -/

theorem expSeries_c (y : ℚ) {k : Nat} (hk : k ≤ 2147483627) :
    expSeries (ofRat y) k = pure (ofRat (expSum (k + 1) y)) := by
  have key := foldlM_range (fun t => ((ofRat (expSum (t + 1) y), ofRat (y ^ (t + 1) / ((t + 1)! : ℚ)),
      ((t + 2 : Nat) : Int)) : Ratio × Ratio × Int)) (expStep (ofRat y)) k ?_
  · rw [expSeries]
    have e1 : ((one, ofRat y, 2) : Ratio × Ratio × Int) = (ofRat (expSum (0 + 1) y),
        ofRat (y ^ (0 + 1) / ((0 + 1)! : ℚ)), ((0 + 2 : Nat) : Int)) := by
      rw [one_c]
      refine Prod.ext (congrArg ofRat ?_) (Prod.ext (congrArg ofRat ?_) rfl)
      · simp [expSum]
      · simp
    rw [e1, key, pure_bind]
  · intro t ht
    rw [expStep]
    simp only []
    rw [Ratio.add_mut_c, pure_bind, Ratio.mul_mut_c, pure_bind, div_nat_i32_mut _ (by omega) (by omega),
      pure_bind, i32Add_eq (by omega) (by omega), pure_bind]
    refine congrArg pure (Prod.ext (congrArg ofRat ?_) (Prod.ext (congrArg ofRat ?_) ?_))
    · rw [expSum, expSum, Finset.sum_range_succ _ (t + 1)]
    · rw [Nat.factorial_succ (t + 1), pow_succ y (t + 1)]
      have := fac_ne (t + 1)
      push_cast
      field_simp
      ring
    · push_cast; ring

theorem expSum_pos {n : Nat} {y : ℚ} (hy : 0 ≤ y) : 0 < expSum (n + 1) y := by
  rw [expSum, Finset.sum_range_succ']
  have : 0 ≤ ∑ i ∈ Finset.range n, y ^ (i + 1) / ((i + 1)! : ℚ) :=
    Finset.sum_nonneg fun i _ => by positivity
  simp
  linarith

theorem qtrunc_frac_lt (p : ℚ) : p - qtrunc p < 1 := by
  rcases le_total 0 p with h | h
  · rw [qtrunc_nonneg p h]
    have := Int.lt_floor_add_one p
    linarith
  · rw [qtrunc_nonpos p h]
    have := Int.le_ceil p
    linarith

/-- the factor `e^frac` -/
def expFracVal (k : Nat) (f : ℚ) : ℚ :=
  if 9 / 10 ≤ f then expSum (k + 20) 1 / expSum (k + 1) (1 - f) else expSum (k + 1) f

theorem expFrac_c {f : ℚ} (hf : f < 1) {k : Nat} (hk : k ≤ 2147483627) :
    expFrac (ofRat f) (ofRat (expSum (k + 20) 1)) k = pure (ofRat (expFracVal k f)) := by
  rw [expFrac, from_dn_i32_c (by unfold IsI32; omega) (by unfold IsI32; omega) (by omega) (by omega) (by omega),
    pure_bind, geq_c, pure_bind, expFracVal]
  have e : (((9 : Int) : ℚ) / ((10 : Int) : ℚ) ≤ f) ↔ (9 / 10 ≤ f) := by norm_num
  by_cases h : 9 / 10 ≤ f
  · rw [decide_eq_true (e.2 h), if_pos rfl, if_pos h, one_c, Ratio.sub_c, pure_bind, expSeries_c _ hk, pure_bind,
      div_c (expSum_pos (by linarith)).ne']
  · rw [decide_eq_false (fun h' => h (e.1 h')), if_neg (by decide), if_neg h, expSeries_c _ hk]

theorem exp_iter_c {x : ℚ} {k : Nat} (hk : k ≤ 2147483627) (hx : |qtrunc x| ≤ 2147483647) :
    exp_iter (ofRat x) k
      = pure (ofRat (expFracVal k (x - qtrunc x) * expSum (k + 20) 1 ^ qtrunc x)) := by
  rw [abs_le] at hx
  have hI : IsI32 (qtrunc x) := by unfold IsI32; omega
  rw [exp_iter, truncate_and_frac_c, pure_bind, e_iter_c hk, pure_bind]
  simp only []
  rw [expFrac_c (qtrunc_frac_lt x) hk, pure_bind, BigI.to_i32_c, pure_bind, if_pos (by omega), unwrapR_ok,
    pure_bind]
  have hp : expSum (k + 20) 1 ≠ 0 := (expSum_pos (by norm_num) : 0 < expSum (k + 19 + 1) 1).ne'
  rcases lt_or_ge (qtrunc x) 0 with h | h
  · rw [pow_i32_neg _ hI h (by omega) hp, pure_bind, Ratio.mul_mut_c]
  · rw [pow_i32_nonneg _ hI h, pure_bind, Ratio.mul_mut_c]

theorem exp_iter_big (x : ℚ) {k : Nat} (hk : 2147483627 < k) : exp_iter (ofRat x) k = throw .overflow := by
  rw [exp_iter, truncate_and_frac_c, pure_bind, e_iter_big hk]
  rfl

theorem exp_iter_range {x : ℚ} (k : Nat) (hx : 2147483647 < qtrunc x ∨ qtrunc x < -2147483647) :
    Panics (exp_iter (ofRat x) k) := by
  rcases Nat.lt_or_ge 2147483627 k with hk | hk
  · exact ⟨_, exp_iter_big x hk⟩
  rw [exp_iter, truncate_and_frac_c, pure_bind, e_iter_c hk, pure_bind]
  simp only []
  rw [expFrac_c (qtrunc_frac_lt x) hk, pure_bind, BigI.to_i32_c, pure_bind]
  by_cases h : qtrunc x = -2147483648
  · rw [if_pos (by omega), unwrapR_ok, pure_bind, pow_i32, h]
    exact ⟨.overflow, rfl⟩
  · rw [if_neg (by omega)]
    exact ⟨_, rfl⟩

/-! ## sine and cosine -/

theorem fac_step (n : Nat) : ((n ! : Nat) : Int) * ((n + 1 : Nat) : Int) * ((n + 2 : Nat) : Int)
    = (((n + 2)! : Nat) : Int) := by
  rw [Nat.factorial_succ (n + 1), Nat.factorial_succ n]
  push_cast
  ring

theorem fac_step' (n a b : Nat) (ha : a = n + 1) (hb : b = n + 2) :
    ((n ! : Nat) : Int) * (a : Int) * (b : Int) = (((n + 2)! : Nat) : Int) := by
  subst ha hb
  exact fac_step n

theorem facI_ne (n : Nat) : ((n ! : Nat) : Int) ≠ 0 := by exact_mod_cast n.factorial_ne_zero

theorem sin_worker_c (y : ℚ) {k : Nat} (hk : k < 500000000) :
    sin_iter_worker (ofRat y) k = pure (ofRat (sinSum (2 * k + 2) y)) := by
  have key := foldlM_range (fun t => ((ofRat (sinSum (2 * t + 1) y), ofRat (y ^ (4 * t + 3)),
      ofInt (((4 * t + 3)! : Nat) : Int)) : Ratio × Ratio × BigI)) (sinStep (ofRat (y * y))) k ?_
  · rw [sin_iter_worker, pow_i32_nonneg _ (by unfold IsI32; omega) (by omega), pure_bind, Ratio.mul_c, pure_bind,
      BigI.from_i32_c (by unfold IsI32; omega) (by omega), pure_bind]
    have e1 : ((ofRat y, ofRat (y ^ (3 : Int)), ofInt 6) : Ratio × Ratio × BigI)
        = (ofRat (sinSum (2 * 0 + 1) y), ofRat (y ^ (4 * 0 + 3)), ofInt (((4 * 0 + 3)! : Nat) : Int)) := by
      refine Prod.ext (congrArg ofRat ?_) (Prod.ext (congrArg ofRat ?_) (congrArg ofInt ?_))
      · simp [sinSum]
      · norm_cast
      · rfl
    rw [e1, key, pure_bind]
    simp only []
    rw [div_bi_c _ (facI_ne _), pure_bind, Ratio.sub_mut_c]
    refine congrArg (fun q => pure (ofRat q)) ?_
    rw [show 2 * k + 2 = (2 * k + 1) + 1 by ring, sinSum, sinSum, Finset.sum_range_succ _ (2 * k + 1),
      show 2 * (2 * k + 1) + 1 = 4 * k + 3 by ring, pow_succ (-1 : ℚ) (2 * k), pow_mul (-1 : ℚ) 2 k]
    simp
    ring
  · intro t ht
    rw [sinStep]
    simp only []
    rw [div_bi_c _ (facI_ne _), pure_bind, Ratio.sub_mut_c, pure_bind, mul_asI32 _ (by omega), pure_bind,
      mul_asI32 _ (by omega), pure_bind, fac_step' (4 * t + 3) _ _ (by ring) (by ring), Ratio.mul_mut_c, pure_bind,
      div_bi_c _ (facI_ne _), pure_bind, Ratio.add_mut_c, pure_bind, mul_asI32 _ (by omega), pure_bind,
      mul_asI32 _ (by omega), pure_bind, fac_step' (4 * t + 3 + 2) _ _ (by ring) (by ring), Ratio.mul_mut_c, pure_bind]
    refine congrArg pure (Prod.ext (congrArg ofRat ?_) (Prod.ext (congrArg ofRat ?_) rfl))
    · rw [show 2 * (t + 1) + 1 = (2 * t + 1) + 1 + 1 by ring, sinSum, sinSum, Finset.sum_range_succ _ (2 * t + 1 + 1),
        Finset.sum_range_succ _ (2 * t + 1),
        show 2 * (2 * t + 1) + 1 = 4 * t + 3 by ring, show 2 * (2 * t + 1 + 1) + 1 = 4 * t + 3 + 2 by ring,
        pow_succ (-1 : ℚ) (2 * t + 1), pow_succ (-1 : ℚ) (2 * t), pow_mul (-1 : ℚ) 2 t]
      simp
      ring
    · ring

theorem cos_worker_c (y : ℚ) {k : Nat} (hk : k < 500000000) :
    cos_iter_worker (ofRat y) k = pure (ofRat (cosSum (2 * k + 2) y)) := by
  have key := foldlM_range (fun t => ((ofRat (cosSum (2 * t + 1) y), ofRat (y ^ (4 * t + 2)),
      ofInt (((4 * t + 2)! : Nat) : Int)) : Ratio × Ratio × BigI)) (cosStep (ofRat (y * y))) k ?_
  · rw [cos_iter_worker, Ratio.mul_c, pure_bind,
      BigI.from_i32_c (by unfold IsI32; omega) (by omega), pure_bind]
    have e1 : ((one, ofRat (y * y), ofInt 2) : Ratio × Ratio × BigI)
        = (ofRat (cosSum (2 * 0 + 1) y), ofRat (y ^ (4 * 0 + 2)), ofInt (((4 * 0 + 2)! : Nat) : Int)) := by
      rw [one_c]
      refine Prod.ext (congrArg ofRat ?_) (Prod.ext (congrArg ofRat ?_) (congrArg ofInt ?_))
      · simp [cosSum]
      · ring
      · rfl
    rw [e1, key, pure_bind]
    simp only []
    rw [div_bi_c _ (facI_ne _), pure_bind, Ratio.sub_mut_c]
    refine congrArg (fun q => pure (ofRat q)) ?_
    rw [show 2 * k + 2 = (2 * k + 1) + 1 by ring, cosSum, cosSum, Finset.sum_range_succ _ (2 * k + 1),
      show 2 * (2 * k + 1) = 4 * k + 2 by ring, pow_succ (-1 : ℚ) (2 * k), pow_mul (-1 : ℚ) 2 k]
    simp
    ring
  · intro t ht
    rw [cosStep]
    simp only []
    rw [div_bi_c _ (facI_ne _), pure_bind, Ratio.sub_mut_c, pure_bind, mul_asI32 _ (by omega), pure_bind,
      mul_asI32 _ (by omega), pure_bind, fac_step' (4 * t + 2) _ _ (by ring) (by ring), Ratio.mul_mut_c, pure_bind,
      div_bi_c _ (facI_ne _), pure_bind, Ratio.add_mut_c, pure_bind, mul_asI32 _ (by omega), pure_bind,
      mul_asI32 _ (by omega), pure_bind, fac_step' (4 * t + 2 + 2) _ _ (by ring) (by ring), Ratio.mul_mut_c, pure_bind]
    refine congrArg pure (Prod.ext (congrArg ofRat ?_) (Prod.ext (congrArg ofRat ?_) rfl))
    · rw [show 2 * (t + 1) + 1 = (2 * t + 1) + 1 + 1 by ring, cosSum, cosSum, Finset.sum_range_succ _ (2 * t + 1 + 1),
        Finset.sum_range_succ _ (2 * t + 1),
        show 2 * (2 * t + 1) = 4 * t + 2 by ring, show 2 * (2 * t + 1 + 1) = 4 * t + 2 + 2 by ring,
        pow_succ (-1 : ℚ) (2 * t + 1), pow_succ (-1 : ℚ) (2 * t), pow_mul (-1 : ℚ) 2 t]
      simp
      ring
    · ring

/-! ## logarithm series -/

theorem lnLoop_c (a : ℚ) {k : Nat} (hk : k < 1000000000) :
    (List.range k).foldlM (lnStep (ofRat a)) (ofRat a, ofRat a)
      = pure (ofRat (logSum (2 * k + 1) a), ofRat (a ^ (2 * k + 1))) := by
  have key := foldlM_range (fun t => ((ofRat (logSum (2 * t + 1) a), ofRat (a ^ (2 * t + 1))) : Ratio × Ratio))
    (lnStep (ofRat a)) k ?_
  · have e1 : ((ofRat a, ofRat a) : Ratio × Ratio)
        = (ofRat (logSum (2 * 0 + 1) a), ofRat (a ^ (2 * 0 + 1))) := by
      simp [logSum]
    rw [e1, key]
  · intro t ht
    rw [lnStep]
    simp only []
    rw [Ratio.mul_mut_c, pure_bind, div_asI32 _ (by omega) (by omega), pure_bind, Ratio.sub_mut_c, pure_bind,
      Ratio.mul_mut_c, pure_bind, div_asI32 _ (by omega) (by omega), pure_bind, Ratio.add_mut_c, pure_bind]
    refine congrArg pure (Prod.ext (congrArg ofRat ?_) (congrArg ofRat ?_))
    · rw [show 2 * (t + 1) + 1 = (2 * t + 1) + 1 + 1 by ring, logSum, logSum, Finset.sum_range_succ _ (2 * t + 1 + 1),
        Finset.sum_range_succ _ (2 * t + 1), pow_succ (-1 : ℚ) (2 * t + 1), pow_succ (-1 : ℚ) (2 * t),
        pow_mul (-1 : ℚ) 2 t]
      push_cast
      simp
      ring
    · ring

/-! ## arc tangent series -/

theorem atanSeries_c (y : ℚ) {k : Nat} (hk : k < 500000000) :
    atanSeries (ofRat y) k = pure (ofRat (atanSum (2 * k + 2) y)) := by
  have key := foldlM_range (fun t => ((ofRat (atanSum (2 * t + 1) y), ofRat (y ^ (4 * t + 3)),
      ((4 * t + 3 : Nat) : Int)) : Ratio × Ratio × Int)) (atanStep (ofRat (y * y))) k ?_
  · rw [atanSeries, Ratio.mul_c, pure_bind, Ratio.mul_c, pure_bind]
    have e1 : ((ofRat y, ofRat (y * y * y), 3) : Ratio × Ratio × Int)
        = (ofRat (atanSum (2 * 0 + 1) y), ofRat (y ^ (4 * 0 + 3)), ((4 * 0 + 3 : Nat) : Int)) := by
      refine Prod.ext (congrArg ofRat ?_) (Prod.ext (congrArg ofRat ?_) rfl)
      · simp [atanSum]
      · ring
    rw [e1, key, pure_bind]
    simp only []
    rw [div_nat_i32 _ (by omega) (by omega), pure_bind, Ratio.sub_mut_c]
    refine congrArg (fun q => pure (ofRat q)) ?_
    rw [show 2 * k + 2 = (2 * k + 1) + 1 by ring, atanSum, atanSum, Finset.sum_range_succ _ (2 * k + 1),
      show 2 * (2 * k + 1) + 1 = 4 * k + 3 by ring, pow_succ (-1 : ℚ) (2 * k), pow_mul (-1 : ℚ) 2 k]
    push_cast
    simp
    ring
  · intro t ht
    rw [atanStep]
    simp only []
    rw [div_nat_i32 _ (by omega) (by omega), pure_bind, Ratio.sub_mut_c, pure_bind,
      i32Add_eq (by omega) (by omega), pure_bind, Ratio.mul_mut_c, pure_bind,
      show ((4 * t + 3 : Nat) : Int) + 2 = ((4 * t + 5 : Nat) : Int) by omega,
      div_nat_i32 _ (by omega) (by omega), pure_bind, Ratio.add_mut_c, pure_bind,
      i32Add_eq (by omega) (by omega), pure_bind, Ratio.mul_mut_c, pure_bind]
    refine congrArg pure (Prod.ext (congrArg ofRat ?_) (Prod.ext (congrArg ofRat ?_) ?_))
    · rw [show 2 * (t + 1) + 1 = (2 * t + 1) + 1 + 1 by ring, atanSum, atanSum, Finset.sum_range_succ _ (2 * t + 1 + 1),
        Finset.sum_range_succ _ (2 * t + 1),
        show 2 * (2 * t + 1) + 1 = 4 * t + 3 by ring, show 2 * (2 * t + 1 + 1) + 1 = 4 * t + 5 by ring,
        pow_succ (-1 : ℚ) (2 * t + 1), pow_succ (-1 : ℚ) (2 * t), pow_mul (-1 : ℚ) 2 t]
      push_cast
      simp
      ring
    · ring
    · push_cast; ring

/-! ## arc sine series -/

/-- the coefficient of `x^(2n+1)` -/
def asinCoeff (n : Nat) : ℚ := ((2 * n)! : ℚ) / (4 ^ n * (n ! : ℚ) ^ 2 * (2 * n + 1))

theorem asinCoeff_succ (n : Nat) : asinCoeff (n + 1)
    = asinCoeff n * (((2 * n + 1) * (2 * n + 1) * (2 * n + 2) : Nat) : ℚ)
      / (((n + 1) * (n + 1) * (2 * n + 3) * 4 : Nat) : ℚ) := by
  rw [asinCoeff, asinCoeff, show 2 * (n + 1) = 2 * n + 1 + 1 by ring, Nat.factorial_succ (2 * n + 1),
    Nat.factorial_succ (2 * n), Nat.factorial_succ n]
  have h1 := fac_ne n
  have h2 := fac_ne (2 * n)
  have h3 : (2 * (n : ℚ) + 1) ≠ 0 := by positivity
  have h4 : ((n : ℚ) + 1) ≠ 0 := by positivity
  have h5 : (2 * (n : ℚ) + 3) ≠ 0 := by positivity
  have h6 : (2 * ((n : ℚ) + 1) + 1) ≠ 0 := by positivity
  push_cast
  rw [pow_succ (4 : ℚ) n]
  field_simp
  ring

theorem asinSum_succ (n : Nat) (y : ℚ) :
    asinSum (n + 1) y = asinSum n y + asinCoeff n * y ^ (2 * n + 1) := by
  rw [asinSum, Finset.sum_range_succ, ← asinSum, asinCoeff]

theorem asinLoop_c (y : ℚ) {k : Nat} (hk : k ≤ 643) :
    (List.range k).foldlM (asinStep (ofRat (y * y))) (ofRat y, ofRat (1 / 6), ofRat (y * y * y))
      = pure (ofRat (asinSum (k + 1) y), ofRat (asinCoeff (k + 1)), ofRat (y ^ (2 * k + 3))) := by
  have key := foldlM_range (fun t => ((ofRat (asinSum (t + 1) y), ofRat (asinCoeff (t + 1)),
      ofRat (y ^ (2 * t + 3))) : Ratio × Ratio × Ratio)) (asinStep (ofRat (y * y))) k ?_
  · have e1 : ((ofRat y, ofRat (1 / 6), ofRat (y * y * y)) : Ratio × Ratio × Ratio)
        = (ofRat (asinSum (0 + 1) y), ofRat (asinCoeff (0 + 1)), ofRat (y ^ (2 * 0 + 3))) := by
      refine Prod.ext (congrArg ofRat ?_) (Prod.ext (congrArg ofRat ?_) (congrArg ofRat ?_))
      · simp [asinSum]
      · simp only [asinCoeff]; norm_num [Nat.factorial]
      · ring
    rw [e1, key]
  · intro t ht
    have b1 : (2 * t + 3) * (2 * t + 3) * (2 * t + 4) ≤ (2 * 642 + 3) * (2 * 642 + 3) * (2 * 642 + 4) := by
      gcongr <;> omega
    have b2 : (t + 2) * (t + 2) * (2 * t + 5) * 4 ≤ (642 + 2) * (642 + 2) * (2 * 642 + 5) * 4 := by
      gcongr <;> omega
    have b3 : (t + 2) * (t + 2) * (2 * t + 5) * 4 ≠ 0 := by positivity
    rw [asinStep]
    simp only []
    rw [Ratio.mul_c, pure_bind, Ratio.add_mut_c, pure_bind, mul_r_asI32_mut _ (by omega), pure_bind,
      div_asI32_mut _ (by omega) b3, pure_bind, Ratio.mul_mut_c, pure_bind]
    refine congrArg pure (Prod.ext (congrArg ofRat ?_) (Prod.ext (congrArg ofRat ?_) (congrArg ofRat ?_)))
    · rw [asinSum_succ (t + 1)]
      ring
    · rw [asinCoeff_succ (t + 1)]
      rfl
    · ring

end Ratio
end Hmath
