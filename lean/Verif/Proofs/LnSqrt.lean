import Verif.Proofs.Series
import Mathlib.Algebra.Order.Field.Power

/-!
# `ln_iter` and `sqrt_iter`
-/

namespace Hmath
open Finset Nat
namespace Ratio

/-! ## scaling by a power of two -/

theorem rem_two_c {n : Int} (hn : 0 < n) :
    BigI.rem_pow2 (ofInt n) 2 = pure (ofInt (n % 2)) := by
  have e := UBig.rem_pow2_eq (k := 1) (valid_ofNat n.natAbs) (by omega)
  rw [val_ofNat, pow_one] at e
  rw [BigI.rem_pow2, BigI.i32Abs_c isI32_two (by omega), pure_bind, BigI.mag_ofInt,
    show (2 : Int).natAbs = 2 from rfl, e, pure_bind]
  refine congrArg pure (BigI.from_ubi_c (by omega) fun _ => ?_)
  rw [BigI.neg_ofInt, decide_eq_false (by omega), Bool.false_and]
  simp
  omega

theorem halveLoop_c (c : Nat) (n : Int) (hn : 0 < n) :
    ∃ (c' : Nat) (n' : Int), halveLoop c (ofInt n) = pure (c', ofInt n') ∧ c' ≤ c ∧
      n = n' * 2 ^ (c - c') ∧ (c' = 0 ∨ n' % 2 = 1) := by
  induction c generalizing n with
  | zero => exact ⟨0, n, rfl, le_refl _, by simp, Or.inl rfl⟩
  | succ c ih =>
    rw [halveLoop, rem_two_c hn, pure_bind, BigI.is_zero_c]
    by_cases h : n % 2 = 0
    · rw [decide_eq_true h, if_pos rfl, BigI.div_i32_mut_c isI32_two (by omega) (by omega), pure_bind]
      have h2 : n.tdiv 2 * 2 = n := Int.tdiv_mul_cancel (Int.dvd_of_emod_eq_zero h)
      obtain ⟨c', n', e, hc, hn', ho⟩ := ih (n.tdiv 2) (by omega)
      refine ⟨c', n', e, by omega, ?_, ho⟩
      rw [show c + 1 - c' = (c - c') + 1 by omega, pow_succ, ← mul_assoc, ← hn', h2]
    · rw [decide_eq_false h, if_neg (by decide)]
      refine ⟨c + 1, n, rfl, le_refl _, by simp, Or.inr ?_⟩
      omega

theorem scaleUp_c (c : Nat) (d : Int) : scaleUp c (ofInt d) = pure (ofInt (d * 2 ^ c)) := by
  have key : ∀ (c : Nat) (d : Int), c % 32 ≤ 30 →
      (BigI.mul_i32_mut (ofInt d) (2 ^ (c % 32)) >>= fun d => pure (BigI.shift_left_mut d (c / 32)))
        = (pure (ofInt (d * 2 ^ c)) : M BigI) := by
    intro c d h
    have hb : (2 : Int) ^ (c % 32) ≤ 2 ^ 30 := pow_le_pow_right₀ (by norm_num) h
    have hp : (0 : Int) < 2 ^ (c % 32) := by positivity
    rw [BigI.mul_i32_mut_c (by unfold IsI32; omega) (by omega), pure_bind, BigI.shift_left_mut_c]
    refine congrArg (fun z => pure (ofInt z)) ?_
    have hB : ((B32 ^ (c / 32) : Nat) : Int) = 2 ^ (32 * (c / 32)) := by
      rw [pow_mul]; push_cast; norm_num
    rw [hB, mul_assoc, ← pow_add]
    congr 2
    omega
  rw [scaleUp, scaleOdd]
  by_cases h : c % 32 = 31
  · rw [if_pos h, BigI.mul_i32_mut_c isI32_two (by omega), pure_bind, pure_bind]
    simp only []
    rw [key (c - 1) (d * 2) (by omega)]
    refine congrArg (fun z => pure (ofInt z)) ?_
    obtain ⟨e, rfl⟩ : ∃ e, c = e + 1 := ⟨c - 1, by omega⟩
    rw [Nat.add_sub_cancel, pow_succ]
    ring
  · rw [if_neg h, pure_bind]
    exact key c d (by omega)

theorem scale_coprime {n d : Int} {c c' : Nat} {n' : Int} (hc : Int.gcd n d = 1)
    (hn : n = n' * 2 ^ (c - c')) (ho : c' = 0 ∨ n' % 2 = 1) : Int.gcd n' (d * 2 ^ c') = 1 := by
  rw [← Int.isCoprime_iff_gcd_eq_one] at *
  have h1 : IsCoprime n' d := hc.of_isCoprime_of_dvd_left ⟨_, hn⟩
  refine h1.mul_right ?_
  rcases ho with h | h
  · rw [h, pow_zero]; exact isCoprime_one_right
  · refine IsCoprime.pow_right ?_
    exact ⟨1, -(n' / 2), by omega⟩

theorem lnScale_c {x : ℚ} (hx : 0 < x) (l : Int) :
    lnScale (ofRat x) l = pure (ofRat (x / 2 ^ l)) := by
  have hn : 0 < x.num := Rat.num_pos.2 hx
  have hd : (0 : Int) < x.den := by exact_mod_cast x.den_pos
  have hcop : Int.gcd x.num x.den = 1 := by rw [Int.gcd_def, Int.natAbs_natCast]; exact x.reduced
  have hx' : x = (x.num : ℚ) / ((x.den : Int) : ℚ) := by rw [Int.cast_natCast, Rat.num_div_den]
  have hdq : ((x.den : Int) : ℚ) ≠ 0 := by exact_mod_cast hd.ne'
  rw [lnScale]
  by_cases h : l > 0
  · rw [if_pos h, numer_ofRat, denom_ofRat]
    obtain ⟨c', n', e, h1, h2, h3⟩ := halveLoop_c l.natAbs x.num hn
    rw [e, pure_bind, scaleUp_c, pure_bind]
    refine congrArg pure (mk_c (by positivity) (scale_coprime hcop h2 h3) ?_)
    have hl : (2 : ℚ) ^ l = 2 ^ (l.natAbs - c') * 2 ^ c' := by
      rw [← pow_add, ← zpow_natCast]
      congr 1
      omega
    conv_rhs => rw [hx', h2, hl]
    push_cast
    field_simp
  · rw [if_neg h, numer_ofRat, denom_ofRat]
    obtain ⟨c', n', e, h1, h2, h3⟩ := halveLoop_c l.natAbs x.den hd
    rw [e, pure_bind, scaleUp_c, pure_bind]
    have hn' : 0 < n' := by
      rw [h2] at hd
      exact pos_of_mul_pos_left hd (by positivity)
    have hnq : (n' : ℚ) ≠ 0 := by exact_mod_cast hn'.ne'
    refine congrArg pure (mk_c hn' ?_ ?_)
    · rw [Int.gcd_comm] at hcop ⊢
      exact scale_coprime hcop h2 h3
    · have hl : (2 : ℚ) ^ l = (2 ^ (l.natAbs - c') * 2 ^ c')⁻¹ := by
        rw [← pow_add, ← zpow_natCast, ← zpow_neg]
        congr 1
        omega
      conv_rhs => rw [hx', h2, hl]
      push_cast
      field_simp

/-! ## the power of two -/

/-- `n^(2^32)` lies between `2^r` and a hair above `2^(r+1)` -/
def LogOk (T : Nat) (n r : Nat) : Prop := 2 ^ r ≤ n ^ T ∧ (n : ℚ) ^ T < 2 ^ (r + 1) * (1 + 1 / 2 ^ 109)

theorem bi_log2_c {T : Nat} (hT : T = 2 ^ 32) (n : Int) (hn : 0 < n) (hb : n < 2 ^ T) :
    ∃ r : Nat, BigI.log2_accurate (ofInt n) = pure (ofInt r) ∧ r < 2 ^ 64 ∧ LogOk T n.natAbs r := by
  have hb' : n.natAbs < 2 ^ T := by zify; rwa [abs_of_pos hn]
  obtain ⟨r, h1, h2, h3, h4⟩ := UBig.log2_accurate_aux (E := T) (K := 16) n.natAbs (by omega) hT rfl
    (hT.trans (by norm_num)) hb'
  refine ⟨r, ?_, h2, h3, h4⟩
  rw [BigI.log2_accurate, BigI.mag_ofInt, h1, pure_bind, BigI.from_ubi_c (z := (r : Int)) (by simp) (by simp)]

theorem log_range {T : Nat} (hT : 0 < T) {x : ℚ} (hx : 0 < x) {rn rd : Nat} {l : Int}
    (hn : LogOk T x.num.natAbs rn) (hd : LogOk T x.den rd)
    (hl : l = ((rn : Int) - rd).tdiv T) :
    (1 / 2 : ℚ) / (1 + 1 / 2 ^ 109) < x / 2 ^ l ∧ x / 2 ^ l < 2 * (1 + 1 / 2 ^ 109) := by
  obtain ⟨n1, n2⟩ := hn
  obtain ⟨d1, d2⟩ := hd
  have hnum : 0 < x.num := Rat.num_pos.2 hx
  have hN : ((x.num.natAbs : Nat) : ℚ) = x.num := by
    rw [← Int.cast_natCast, Int.natAbs_of_nonneg hnum.le]
  have n1' : (2 : ℚ) ^ rn ≤ (x.num : ℚ) ^ T := by rw [← hN]; exact_mod_cast n1
  have d1' : (2 : ℚ) ^ rd ≤ (x.den : ℚ) ^ T := by exact_mod_cast d1
  rw [hN] at n2
  have hdp : (0 : ℚ) < x.den := by exact_mod_cast x.den_pos
  have hnp : (0 : ℚ) < x.num := by exact_mod_cast hnum
  generalize hδ : (1 : ℚ) + 1 / 2 ^ 109 = δ at *
  have hδ1 : 1 ≤ δ := by rw [← hδ]; norm_num
  have hδT : δ ≤ δ ^ T := le_self_pow₀ hδ1 hT.ne'
  have hxT : (x / 2 ^ l) ^ T = (x.num : ℚ) ^ T / ((x.den : ℚ) ^ T * 2 ^ (l * T)) := by
    conv_lhs => rw [← Rat.num_div_den x]
    rw [div_pow, div_pow, div_div, ← zpow_natCast ((2 : ℚ) ^ l), ← zpow_mul]
  have hx0 : 0 < x / 2 ^ l := by positivity
  have hq : ((rn : Int) - rd) = T * l + ((rn : Int) - rd).tmod T := by
    rw [hl]; exact (Int.mul_tdiv_add_tmod _ _).symm
  have hm1 : ((rn : Int) - rd).tmod T < T := Int.tmod_lt_of_pos _ (by exact_mod_cast hT)
  have hm2 : -(T : Int) < ((rn : Int) - rd).tmod T := by
    have := Int.lt_tmod_of_pos ((rn : Int) - rd) (show (0 : Int) < T by exact_mod_cast hT)
    exact this
  generalize ((rn : Int) - rd).tmod T = M at *
  constructor
  · refine lt_of_pow_lt_pow_left₀ T hx0.le ?_
    rw [hxT, lt_div_iff₀ (by positivity), div_pow, div_pow, one_pow]
    have h1 : (2 : ℚ) ^ (rd + 1) * 2 ^ (l * T) ≤ 2 ^ T * 2 ^ rn := by
      rw [← zpow_natCast, ← zpow_natCast, ← zpow_natCast, ← zpow_add₀ (by norm_num), ← zpow_add₀ (by norm_num)]
      refine zpow_le_zpow_right₀ (by norm_num) ?_
      push_cast
      nlinarith
    calc 1 / 2 ^ T / δ ^ T * ((x.den : ℚ) ^ T * 2 ^ (l * T))
        < 1 / 2 ^ T / δ ^ T * ((2 ^ (rd + 1) * δ) * 2 ^ (l * T)) := by gcongr
      _ = (2 ^ (rd + 1) * 2 ^ (l * T)) * (δ / δ ^ T) / 2 ^ T := by ring
      _ ≤ (2 ^ T * 2 ^ rn) * 1 / 2 ^ T := by
          gcongr
          exact div_le_one_of_le₀ hδT (by positivity)
      _ = 2 ^ rn := by field_simp
      _ ≤ _ := n1'
  · refine lt_of_pow_lt_pow_left₀ T (by positivity) ?_
    rw [hxT, div_lt_iff₀ (by positivity), mul_pow]
    have h1 : (2 : ℚ) ^ (rn + 1) ≤ 2 ^ T * (2 ^ rd * 2 ^ (l * T)) := by
      rw [← zpow_natCast, ← zpow_natCast, ← zpow_natCast, ← zpow_add₀ (by norm_num), ← zpow_add₀ (by norm_num)]
      refine zpow_le_zpow_right₀ (by norm_num) ?_
      push_cast
      nlinarith
    calc (x.num : ℚ) ^ T < 2 ^ (rn + 1) * δ := n2
      _ ≤ 2 ^ T * (2 ^ rd * 2 ^ (l * T)) * δ ^ T := by gcongr
      _ = 2 ^ T * δ ^ T * (2 ^ rd * 2 ^ (l * T)) := by ring
      _ ≤ _ := by gcongr

theorem lnLog2_c {T : Nat} (hT : T = 2 ^ 32) {x : ℚ} (hx : 0 < x) (hn : x.num < 2 ^ T)
    (hd : (x.den : Int) < 2 ^ T) :
    ∃ l : Int, lnLog2 (ofRat x) = pure l ∧ |l| ≤ 4294967296 ∧
      (1 / 2 : ℚ) / (1 + 1 / 2 ^ 109) < x / 2 ^ l ∧ x / 2 ^ l < 2 * (1 + 1 / 2 ^ 109) := by
  have hnum : 0 < x.num := Rat.num_pos.2 hx
  obtain ⟨rn, a1, a2, a3⟩ := bi_log2_c hT x.num hnum hn
  obtain ⟨rd, b1, b2, b3⟩ := bi_log2_c hT x.den (by exact_mod_cast x.den_pos) hd
  rw [Int.natAbs_natCast] at b3
  have hT' : (B32 ^ 1 : Nat) = T := by rw [hT]; norm_num
  have hl : |((rn : Int) - rd).tdiv (T : Int)| ≤ 4294967296 := by
    have hT2 : (T : Int) = 4294967296 := by rw [hT]; norm_num
    have hq := Int.natAbs_tdiv ((rn : Int) - rd) 4294967296
    change _ = ((rn : Int) - rd).natAbs / 4294967296 at hq
    rw [hT2, abs_le]
    omega
  refine ⟨_, ?_, hl, log_range (by rw [hT]; norm_num) hx a3 b3 rfl⟩
  rw [abs_le] at hl
  rw [lnLog2, numer_ofRat, denom_ofRat, a1, pure_bind, b1, pure_bind, BigI.sub_c, pure_bind, BigI.shift_right_c,
    hT', BigI.to_i64_c, pure_bind, if_pos (by omega), unwrapR_ok]

theorem ln_iter_c {T : Nat} (hT : T = 2 ^ 32) {x : ℚ} (hx : 0 < x) (hn : x.num < 2 ^ T)
    (hd : (x.den : Int) < 2 ^ T) {k : Nat} (hk : k ≤ 205) :
    ∃ (l : Int) (a : ℚ), x = (1 + a) * 2 ^ l ∧ |l| ≤ 4294967296 ∧
      -(1 / 2) - 1 / 2 ^ 109 < a ∧ a < 1 + 1 / 2 ^ 108 ∧
      ln_iter (ofRat x) k = pure (ofRat (logSum (2 * k + 1) a + ln2Sum (6 * k + 12) * l)) := by
  obtain ⟨l, e, h1, h2, h3⟩ := lnLog2_c hT hx hn hd
  refine ⟨l, x / 2 ^ l - 1, ?_, h1, ?_, ?_, ?_⟩
  · rw [add_sub_cancel, div_mul_cancel₀ _ (by positivity)]
  · norm_num at h2 ⊢; linarith
  · norm_num at h3 ⊢; linarith
  · rw [abs_le] at h1
    rw [ln_iter, is_neg_c, decide_eq_false (by linarith), if_neg (by decide), is_zero_c, decide_eq_false hx.ne',
      if_neg (by decide), e, pure_bind, lnScale_c hx, pure_bind, sub_i32_mut_c _ isI32_one (by omega), pure_bind,
      Int.cast_one, lnLoop_c _ (by omega), pure_bind, ln2_iter_c hk, pure_bind, BigI.from_i64_c (by omega) (by omega),
      pure_bind, mul_bi_c, pure_bind, Ratio.add_c]

theorem ln_iter_neg {x : ℚ} (hx : x ≤ 0) (k : Nat) : ln_iter (ofRat x) k = throw .explicit := by
  rw [ln_iter, is_neg_c, is_zero_c]
  rcases lt_or_eq_of_le hx with h | h
  · rw [decide_eq_true h, if_pos rfl]
  · rw [decide_eq_false (by linarith), if_neg (by decide), decide_eq_true h, if_pos rfl]

/-! ## square root -/

theorem bi_sqrt_or (n : Int) : Panics (BigI.sqrt (ofInt n)) ∨
    BigI.sqrt (ofInt n) = pure (ofInt (if n < 0 then -(Nat.sqrt n.natAbs : Int) else Nat.sqrt n.natAbs)) := by
  rw [BigI.sqrt, BigI.mag_ofInt]
  rcases UBig.sqrt_or n.natAbs with ⟨p, h⟩ | h
  · left; exact ⟨p, by rw [h]; rfl⟩
  · right
    rw [h, pure_bind]
    refine congrArg pure (BigI.from_ubi_c ?_ ?_)
    · split <;> simp
    · intro h0
      rw [BigI.neg_ofInt, decide_eq_true_iff]
      split <;> omega

theorem sqrt_iter_eq (x : ℚ) (k : Nat)
    (h : BigI.sqrt (ofInt ((x.den : Int) * (B32 ^ (k + 1) : Nat))) = pure (ofInt
      (if (x.den : Int) * (B32 ^ (k + 1) : Nat) < 0 then -(Nat.sqrt ((x.den : Int) * (B32 ^ (k + 1) : Nat)).natAbs : Int)
        else Nat.sqrt ((x.den : Int) * (B32 ^ (k + 1) : Nat)).natAbs)))
    (h' : BigI.sqrt (ofInt (x.num * (B32 ^ (k + 1) : Nat))) = pure (ofInt
      (if x.num * (B32 ^ (k + 1) : Nat) < 0 then -(Nat.sqrt (x.num * (B32 ^ (k + 1) : Nat)).natAbs : Int)
        else Nat.sqrt (x.num * (B32 ^ (k + 1) : Nat)).natAbs))) :
    sqrt_iter (ofRat x) k = pure (ofRat ((if x < 0 then -1 else 1) *
      ((Nat.sqrt (x.num.natAbs * B32 ^ (k + 1)) : ℚ) / Nat.sqrt (x.den * B32 ^ (k + 1))))) := by
  rw [sqrt_iter, numer_ofRat, denom_ofRat, BigI.shift_left_c, BigI.shift_left_c, Nat.add_comm 1 k]
  generalize hB : B32 ^ (k + 1) = B at *
  have hB0 : 0 < B := by rw [← hB]; positivity
  rw [h, pure_bind]
  have hd : (x.den : Int) * B = ((x.den * B : Nat) : Int) := by push_cast; rfl
  have hpos : 0 < Nat.sqrt (x.den * B) := Nat.sqrt_pos.2 (Nat.mul_pos x.den_pos hB0)
  rw [h', pure_bind, if_neg (by rw [hd]; omega), hd, Int.natAbs_natCast, Int.natAbs_mul, Int.natAbs_natCast,
    from_dn_c (by omega) rfl]
  refine congrArg (fun q => pure (ofRat q)) ?_
  have hs : (x.num * (B : Int) < 0) ↔ x < 0 := by
    rw [← Rat.num_neg]
    constructor
    · intro h; by_contra h0; exact absurd h (not_lt.2 (mul_nonneg (not_lt.1 h0) (by omega)))
    · intro h; exact mul_neg_of_neg_of_pos h (by omega)
  by_cases hx : x < 0
  · rw [if_pos (hs.2 hx), if_pos hx]
    push_cast
    ring
  · rw [if_neg (fun h => hx (hs.1 h)), if_neg hx]
    push_cast
    ring

theorem sqrt_iter_or (x : ℚ) (k : Nat) : Panics (sqrt_iter (ofRat x) k) ∨
    sqrt_iter (ofRat x) k = pure (ofRat ((if x < 0 then -1 else 1) *
      ((Nat.sqrt (x.num.natAbs * B32 ^ (k + 1)) : ℚ) / Nat.sqrt (x.den * B32 ^ (k + 1))))) := by
  rcases bi_sqrt_or ((x.den : Int) * (B32 ^ (k + 1) : Nat)) with ⟨p, h⟩ | h
  · left
    refine ⟨p, ?_⟩
    rw [sqrt_iter, numer_ofRat, denom_ofRat, BigI.shift_left_c, BigI.shift_left_c, Nat.add_comm 1 k, h]
    rfl
  rcases bi_sqrt_or (x.num * (B32 ^ (k + 1) : Nat)) with ⟨p, h'⟩ | h'
  · left
    refine ⟨p, ?_⟩
    rw [sqrt_iter, numer_ofRat, denom_ofRat, BigI.shift_left_c, BigI.shift_left_c, Nat.add_comm 1 k, h, h']
    rfl
  right
  exact sqrt_iter_eq x k h h'

theorem length_mul_pow {n : Nat} (hn : 0 < n) (j : Nat) : (ofNat (n * B32 ^ j)).length = (ofNat n).length + j := by
  have hL := length_ofNat_pos n
  have h1 : (ofNat (n * B32 ^ j)).length ≤ (ofNat n).length + j := by
    rw [length_ofNat_le_iff (by omega), pow_add]
    exact Nat.mul_lt_mul_of_pos_right (lt_pow_length n) (by positivity)
  rcases Nat.eq_zero_or_pos ((ofNat n).length + j - 1) with h0 | h0
  · have := length_ofNat_pos (n * B32 ^ j)
    omega
  · have h2 : (ofNat n).length + j - 1 < (ofNat (n * B32 ^ j)).length := by
      rw [length_ofNat_gt_iff h0, show (ofNat n).length + j - 1 = ((ofNat n).length - 1) + j by omega, pow_add]
      exact Nat.mul_le_mul_right _ (pow_length_le hn)
    omega

theorem topPart_shift {n : Nat} (hn : 0 < n) (k : Nat) :
    UBig.topPart (n * B32 ^ (k + 1)) = n * B32 / B32 ^ ((ofNat n).length - 1) := by
  have hL := length_ofNat_pos n
  rw [UBig.topPart, length_mul_pow hn, pow_succ, show (ofNat n).length + (k + 1) - 2 = k + ((ofNat n).length - 1) by omega,
    pow_add, show n * (B32 ^ k * B32) = B32 ^ k * (n * B32) by ring, Nat.mul_div_mul_left _ _ (by positivity)]

theorem bi_sqrt_shift {n : Int} {k : Nat}
    (h : n.natAbs * B32 / B32 ^ ((ofNat n.natAbs).length - 1) < 18432275944676888320) :
    BigI.sqrt (ofInt (n * (B32 ^ (k + 1) : Nat))) = pure (ofInt
      (if n * (B32 ^ (k + 1) : Nat) < 0 then -(Nat.sqrt (n * (B32 ^ (k + 1) : Nat)).natAbs : Int)
        else Nat.sqrt (n * (B32 ^ (k + 1) : Nat)).natAbs)) := by
  have hs : UBig.sqrt (ofNat (n * (B32 ^ (k + 1) : Nat)).natAbs)
      = pure (ofNat (Nat.sqrt (n * (B32 ^ (k + 1) : Nat)).natAbs)) := by
    refine UBig.sqrt_c _ ?_
    rw [Int.natAbs_mul, Int.natAbs_natCast]
    rcases Nat.eq_zero_or_pos n.natAbs with h0 | h0
    · rw [h0, Nat.zero_mul]; simp [UBig.topPart]
    · rw [topPart_shift h0]; exact h
  rw [BigI.sqrt, BigI.mag_ofInt, hs, pure_bind]
  refine congrArg pure (BigI.from_ubi_c ?_ ?_)
  · split <;> simp
  · intro h0
    rw [BigI.neg_ofInt, decide_eq_true_iff]
    split <;> omega

theorem bi_sqrt_shift_panics {n : Int} {k : Nat}
    (h : 18432275944676888320 ≤ n.natAbs * B32 / B32 ^ ((ofNat n.natAbs).length - 1)) :
    Panics (BigI.sqrt (ofInt (n * (B32 ^ (k + 1) : Nat)))) := by
  have h0 : 0 < n.natAbs := by
    rcases Nat.eq_zero_or_pos n.natAbs with h0 | h0
    · rw [h0, Nat.zero_mul, Nat.zero_div] at h; omega
    · exact h0
  have hs : Panics (UBig.sqrt (ofNat (n * (B32 ^ (k + 1) : Nat)).natAbs)) := by
    refine UBig.sqrt_panics _ ?_
    rw [Int.natAbs_mul, Int.natAbs_natCast, topPart_shift h0]
    exact h
  obtain ⟨p, hs⟩ := hs
  rw [BigI.sqrt, BigI.mag_ofInt, hs]
  exact ⟨p, rfl⟩

theorem sqrt_iter_panics {x : ℚ} (k : Nat)
    (h : 18432275944676888320 ≤ x.num.natAbs * B32 / B32 ^ ((ofNat x.num.natAbs).length - 1) ∨
      18432275944676888320 ≤ x.den * B32 / B32 ^ ((ofNat x.den).length - 1)) : Panics (sqrt_iter (ofRat x) k) := by
  rw [sqrt_iter, numer_ofRat, denom_ofRat, BigI.shift_left_c, BigI.shift_left_c, Nat.add_comm 1 k]
  by_cases hd : 18432275944676888320 ≤ x.den * B32 / B32 ^ ((ofNat x.den).length - 1)
  · obtain ⟨p, hp⟩ := bi_sqrt_shift_panics (n := (x.den : Int)) (k := k) (by simpa using hd)
    rw [hp]; exact ⟨p, rfl⟩
  · obtain ⟨p, hp⟩ := bi_sqrt_shift_panics (n := x.num) (k := k) (h.resolve_right hd)
    rcases bi_sqrt_or ((x.den : Int) * (B32 ^ (k + 1) : Nat)) with ⟨q, hq⟩ | hq
    · rw [hq]; exact ⟨q, rfl⟩
    · rw [hq, pure_bind, hp]; exact ⟨p, rfl⟩

end Ratio
end Hmath
