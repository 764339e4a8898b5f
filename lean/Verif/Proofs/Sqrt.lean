import Verif.Proofs.SqrtU64
import Verif.Proofs.Canon

/-!
# `UBigInt::sqrt`
-/

namespace Hmath
namespace UBig

theorem sqrtUp_spec (n div : Nat) (hd : 1 ≤ div) (hdb : div < B32) :
    ∀ (k r : Nat), Nat.sqrt n + 1 ≤ r + k →
    ∃ r', sqrtUp (ofNat n) (ofNat r) div = pure (ofNat r') ∧ n ≤ r' * r' := by
  intro k
  induction k with
  | zero =>
    intro r hk
    have hn : n < r * r := by
      have := (sqrt_bounds n).2
      have h2 : (Nat.sqrt n + 1) * (Nat.sqrt n + 1) ≤ r * r := Nat.mul_le_mul (by omega) (by omega)
      omega
    refine ⟨r, ?_, by omega⟩
    rw [sqrtUp, mul_c, pure_bind, lt_c, decide_eq_false (by omega)]; rfl
  | succ k ih =>
    intro r hk
    by_cases hlt : r * r < n
    · have h1 : r ≤ Nat.sqrt n := le_sqrt_of_sq (by omega)
      obtain ⟨r', e, h⟩ := ih (r + div) (by omega)
      refine ⟨r', ?_, h⟩
      rw [sqrtUp, mul_c, pure_bind, lt_c, decide_eq_true hlt, if_pos rfl, add_u32_mut_c hdb,
        pure_bind, e]
    · refine ⟨r, ?_, by omega⟩
      rw [sqrtUp, mul_c, pure_bind, lt_c, decide_eq_false hlt]; rfl

theorem sqrtDown_spec (n div : Nat) (hd : 1 ≤ div) (hdb : div < B32) (hs : div ≤ Nat.sqrt n + 1) :
    ∀ (r : Nat), n ≤ r * r →
    ∃ r', sqrtDown (ofNat n) (ofNat r) div = pure (ofNat r') ∧ r' ≤ Nat.sqrt n ∧
      Nat.sqrt n < r' + div := by
  suffices H : ∀ (k r : Nat), r ≤ k → Nat.sqrt n < r + div →
      ∃ r', sqrtDown (ofNat n) (ofNat r) div = pure (ofNat r') ∧ r' ≤ Nat.sqrt n ∧
        Nat.sqrt n < r' + div by
    intro r hr
    refine H r r le_rfl ?_
    have : Nat.sqrt n ≤ r := by
      rw [← Nat.sqrt_eq r]; exact Nat.sqrt_le_sqrt hr
    omega
  intro k
  induction k with
  | zero =>
    intro r hk hi
    obtain rfl : r = 0 := by omega
    refine ⟨0, ?_, by omega, hi⟩
    rw [sqrtDown, mul_c, pure_bind, gt_c, decide_eq_false (by omega)]; rfl
  | succ k ih =>
    intro r hk hi
    by_cases hgt : n < r * r
    · have h1 : Nat.sqrt n < r := sqrt_lt_of_sq hgt
      obtain ⟨r', e, h⟩ := ih (r - div) (by omega) (by omega)
      refine ⟨r', ?_, h⟩
      rw [sqrtDown, mul_c, pure_bind, gt_c, decide_eq_true hgt, if_pos rfl,
        sub_u32_mut_c hdb (by omega), pure_bind, e]
    · refine ⟨r, ?_, le_sqrt_of_sq (by omega), hi⟩
      rw [sqrtDown, mul_c, pure_bind, gt_c, decide_eq_false hgt]; rfl

theorem sqrtFin_spec (n : Nat) : ∀ (div r : Nat), 1 ≤ div → div < B32 →
    div ≤ 4 * Nat.sqrt n + 3 → sqrtFin (ofNat n) (ofNat r) div = pure (ofNat (Nat.sqrt n)) := by
  intro div
  induction div using Nat.strong_induction_on with
  | _ div ih =>
    intro r hd hdb hd4
    obtain ⟨r1, e1, h1⟩ := sqrtUp_spec n div hd hdb (Nat.sqrt n + 1) r (by omega)
    have hle := sqrtNextDiv_le div
    obtain ⟨r2, e2, h2, h2'⟩ := sqrtDown_spec n (sqrtNextDiv div) (sqrtNextDiv_pos _)
      (by omega) (by omega) r1 h1
    rw [sqrtFin, e1, pure_bind, e2, pure_bind]
    by_cases h0 : sqrtNextDiv div / 4 = 0
    · rw [if_pos h0]
      have := sqrtNextDiv_one h0
      rw [show r2 = Nat.sqrt n by omega]
    · rw [if_neg h0]
      have h3 := sqrtNextDiv_div div h0
      exact ih _ (by omega) r2 (by omega) (by omega) (by omega)

theorem half_div (x r : Nat) : x / 2 / r = x / (2 * r) := Nat.div_div_eq_div_mul x 2 r

theorem sqrtStep_below (n r : Nat) (hr : 0 < r) (h : r * r ≤ n) :
    sqrtStep (ofNat n) (ofNat r) =
      pure (ofNat ((n - r * r) / (2 * r)), ofNat (r + (n - r * r) / (2 * r))) := by
  rw [sqrtStep, mul_c, pure_bind, geq_c, decide_eq_true h, if_pos rfl, sub_c h, pure_bind,
    div_u32_c (by omega) (by omega), pure_bind, div_c hr, pure_bind, add_mut_c, pure_bind, half_div]

theorem sqrtStep_above (n r : Nat) (hr : 0 < r) (h : n < r * r) :
    sqrtStep (ofNat n) (ofNat r) =
      pure (ofNat ((r * r - n) / (2 * r)), ofNat (r - (r * r - n) / (2 * r))) := by
  have h2 := newton_above hr h.le rfl
  rw [sqrtStep, mul_c, pure_bind, geq_c, decide_eq_false (by omega)]
  simp only [Bool.false_eq_true, if_false]
  rw [sub_c h.le, pure_bind, div_u32_c (by omega) (by omega), pure_bind, div_c hr, pure_bind,
    half_div, sub_mut_c (by omega), pure_bind]

theorem length_lt_two (m : Nat) : (ofNat m).length < 2 ↔ m < B32 := by
  have := length_ofNat_le_iff (n := m) (k := 1) (by omega)
  rw [pow_one] at this; omega

/-- the Newton loop ends, and leaves a small last correction -/
theorem sqrtLoop_spec (n : Nat) : ∀ (k r : Nat), r ≤ k → 0 < r → Nat.sqrt n ≤ r →
    ∃ d r', sqrtLoop (ofNat n) (ofNat r) = pure (ofNat d, ofNat r') ∧ d < B32 := by
  intro k
  induction k with
  | zero => intro r h h'; omega
  | succ k ih =>
    intro r hk hr hS
    by_cases hle : r * r ≤ n
    · -- one more step from below: the correction is at most 1
      have hb := (sqrt_bounds n).2
      have hq := newton_below hr hle rfl
      have : (n - r * r) / (2 * r) < B32 := by
        have hrS : r = Nat.sqrt n := le_antisymm (le_sqrt_of_sq hle) hS
        rw [Nat.div_lt_iff_lt_mul (by omega)]
        rw [← hrS] at hb
        have : (r + 1) * (r + 1) = r * r + 2 * r + 1 := by ring
        omega
      refine ⟨_, r + (n - r * r) / (2 * r), ?_, this⟩
      rw [sqrtLoop, sqrtStep_below n r hr hle, pure_bind, if_pos ((length_lt_two _).mpr this)]
    · have hgt : n < r * r := by omega
      have hq := newton_above hr hgt.le rfl
      by_cases hd : (r * r - n) / (2 * r) < B32
      · refine ⟨_, r - (r * r - n) / (2 * r), ?_, hd⟩
        rw [sqrtLoop, sqrtStep_above n r hr hgt, pure_bind, if_pos ((length_lt_two _).mpr hd)]
      · obtain ⟨q, hqe⟩ : ∃ q, q = (r * r - n) / (2 * r) := ⟨_, rfl⟩
        rw [← hqe] at hq hd
        have hq2 : q < r := by
          have := hq.2
          by_contra hc
          nlinarith
        obtain ⟨d, r', e, h⟩ := ih (r - q) (by omega) (by omega) (by omega)
        refine ⟨d, r', ?_, h⟩
        rw [sqrtLoop, sqrtStep_above n r hr hgt, pure_bind,
          if_neg (by rw [length_lt_two]; rw [← hqe]; exact hd), ← hqe]
        exact e

theorem sqrtScale_eq (L a : Nat) (hL : 3 ≤ L) (ha : a < B64) :
    sqrtScale L a = pure (ofNat ((if L % 2 ≠ 0 then a * 65536 else a) * B32 ^ (L / 2 - 1))) := by
  unfold sqrtScale
  split
  · rw [from_u64_eq ha, mul_u32_mut_c (by omega), pure_bind, uSub_eq (by omega), pure_bind,
      shift_left_mut_c]
  · rw [from_u64_eq ha, uSub_eq (by omega), pure_bind, shift_left_mut_c]

/-- everything after the first approximation -/
theorem sqrt_eq_of_top (n a : Nat) (hL : 3 ≤ (ofNat n).length)
    (htop : sqrt_u64 (n / B32 ^ ((ofNat n).length - 2)) = pure a)
    (ha : a = Nat.sqrt (n / B32 ^ ((ofNat n).length - 2))) :
    sqrt (ofNat n) = pure (ofNat (Nat.sqrt n)) := by
  obtain ⟨L, hLe⟩ : ∃ L, L = (ofNat n).length := ⟨_, rfl⟩
  rw [← hLe] at hL htop ha
  obtain ⟨T, hT⟩ : ∃ T, T = n / B32 ^ (L - 2) := ⟨_, rfl⟩
  rw [← hT] at htop ha
  have hnlt : n < B32 ^ L := by rw [hLe]; exact lt_pow_length n
  have hn2 : B32 ^ 2 ≤ n := (length_ofNat_gt_iff (by omega)).mp (by omega)
  have hnge : B32 ^ (L - 1) ≤ n := by rw [hLe]; exact pow_length_le (by omega)
  have hTlt : T < B64 := by
    rw [hT, Nat.div_lt_iff_lt_mul (by positivity), show B64 = B32 ^ 2 by norm_num, ← pow_add,
      show 2 + (L - 2) = L by omega]
    exact hnlt
  have hTge : B32 ≤ T := by
    rw [hT, Nat.le_div_iff_mul_le (by positivity), ← pow_succ', show L - 2 + 1 = L - 1 by omega]
    exact hnge
  have hTn : T * B32 ^ (L - 2) ≤ n := by rw [hT]; exact Nat.div_mul_le_self _ _
  have ha2 : a * a ≤ T := by rw [ha]; exact Nat.sqrt_le T
  have ha1 : 1 ≤ a := by rw [ha]; exact le_sqrt_of_sq (by omega)
  have hab : a < B64 := by nlinarith
  obtain ⟨r, hr⟩ : ∃ r, r = (if L % 2 ≠ 0 then a * 65536 else a) * B32 ^ (L / 2 - 1) := ⟨_, rfl⟩
  have hr1 : 0 < r := by
    rw [hr]; apply Nat.mul_pos _ (by positivity); split <;> omega
  have hrr : r * r ≤ n := by
    refine le_trans ?_ hTn
    rw [hr]
    split
    · have e : B32 ^ (L - 2) = 4294967296 * (B32 ^ (L / 2 - 1) * B32 ^ (L / 2 - 1)) := by
        rw [← pow_add, ← pow_succ']; congr 1; omega
      rw [e]
      calc a * 65536 * B32 ^ (L / 2 - 1) * (a * 65536 * B32 ^ (L / 2 - 1))
          = (a * a) * (4294967296 * (B32 ^ (L / 2 - 1) * B32 ^ (L / 2 - 1))) := by ring
        _ ≤ _ := Nat.mul_le_mul_right _ ha2
    · have e : B32 ^ (L - 2) = B32 ^ (L / 2 - 1) * B32 ^ (L / 2 - 1) := by
        rw [← pow_add]; congr 1; omega
      rw [e]
      calc a * B32 ^ (L / 2 - 1) * (a * B32 ^ (L / 2 - 1))
          = (a * a) * (B32 ^ (L / 2 - 1) * B32 ^ (L / 2 - 1)) := by ring
        _ ≤ _ := Nat.mul_le_mul_right _ ha2
  have hnew := newton_below hr1 hrr rfl
  obtain ⟨d, r', e, hd⟩ := sqrtLoop_spec n _ _ le_rfl
    (Nat.add_pos_left hr1 _ : 0 < r + (n - r * r) / (2 * r)) hnew.1
  have hS : B32 ≤ Nat.sqrt n := le_sqrt_of_sq (by rw [← sq]; exact hn2)
  have hfin := sqrtFin_spec n (if d = 0 then 2 else d) r'
    (by split <;> omega) (by split <;> omega) (by split <;> omega)
  rw [sqrt, ← hLe, if_neg (by omega), uSub_eq (by omega), pure_bind, shift_right_c, ← hT, to_u64_c,
    if_pos hTlt, pure_bind, unwrapR_ok, pure_bind, htop, pure_bind, sqrtScale_eq L a hL hab,
    pure_bind, ← hr, mul_c, pure_bind, sub_c hrr, pure_bind, div_u32_c (by omega) (by omega),
    pure_bind, div_c hr1, pure_bind, add_mut_c, pure_bind, half_div, e, pure_bind]
  simp only
  rw [to_u32_c, if_pos hd, pure_bind, unwrapR_ok, pure_bind, hfin]

/-- the two leading limbs of `n` (of the number itself if it has at most two) -/
def topPart (n : Nat) : Nat := n / B32 ^ ((ofNat n).length - 2)

theorem sqrt_c (n : Nat) (h : topPart n < 18432275944676888320) :
    sqrt (ofNat n) = pure (ofNat (Nat.sqrt n)) := by
  unfold topPart at h
  by_cases hL : (ofNat n).length < 3
  · rw [show (ofNat n).length - 2 = 0 by omega, pow_zero, Nat.div_one] at h
    have hle : Nat.sqrt n ≤ n := Nat.sqrt_le_self n
    rw [sqrt, if_pos hL, to_u64_c, if_pos (by omega), pure_bind, unwrapR_ok, pure_bind,
      sqrt_u64_eq n h, pure_bind, from_u64_eq (by omega)]
  · exact sqrt_eq_of_top n _ (by omega) (sqrt_u64_eq _ h) rfl

theorem topPart_lt (n : Nat) : topPart n < B64 := by
  unfold topPart
  rw [Nat.div_lt_iff_lt_mul (by positivity), show B64 = B32 ^ 2 by norm_num, ← pow_add]
  exact lt_of_lt_of_le (lt_pow_length n) (Nat.pow_le_pow_right (by omega) (by omega))

theorem sqrt_panics (n : Nat) (h : 18432275944676888320 ≤ topPart n) :
    Panics (sqrt (ofNat n)) := by
  have hlt := topPart_lt n
  obtain ⟨p, e⟩ := sqrt_u64_panics (topPart n) h hlt
  refine ⟨p, ?_⟩
  unfold topPart at *
  by_cases hL : (ofNat n).length < 3
  · rw [show (ofNat n).length - 2 = 0 by omega, pow_zero, Nat.div_one] at e hlt
    rw [sqrt, if_pos hL, to_u64_c, if_pos hlt, pure_bind, unwrapR_ok, pure_bind, e]; rfl
  · rw [sqrt, if_neg hL, uSub_eq (by omega), pure_bind, shift_right_c, to_u64_c,
      if_pos hlt, pure_bind, unwrapR_ok, pure_bind, e]; rfl

theorem sqrt_or (n : Nat) :
    Panics (sqrt (ofNat n)) ∨ sqrt (ofNat n) = pure (ofNat (Nat.sqrt n)) := by
  have hlt := topPart_lt n
  rcases sqrt_u64_or (topPart n) hlt with ⟨p, e⟩ | e
  · left
    refine ⟨p, ?_⟩
    unfold topPart at *
    by_cases hL : (ofNat n).length < 3
    · rw [show (ofNat n).length - 2 = 0 by omega, pow_zero, Nat.div_one] at e hlt
      rw [sqrt, if_pos hL, to_u64_c, if_pos hlt, pure_bind, unwrapR_ok, pure_bind, e]; rfl
    · rw [sqrt, if_neg hL, uSub_eq (by omega), pure_bind, shift_right_c, to_u64_c,
        if_pos hlt, pure_bind, unwrapR_ok, pure_bind, e]; rfl
  · right
    unfold topPart at *
    by_cases hL : (ofNat n).length < 3
    · rw [show (ofNat n).length - 2 = 0 by omega, pow_zero, Nat.div_one] at e hlt
      have hle : Nat.sqrt n ≤ n := Nat.sqrt_le_self n
      rw [sqrt, if_pos hL, to_u64_c, if_pos hlt, pure_bind, unwrapR_ok, pure_bind,
        e, pure_bind, from_u64_eq (by omega)]
    · exact sqrt_eq_of_top n _ (by omega) e rfl

end UBig
end Hmath
