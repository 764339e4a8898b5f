import Verif.Model.Fp192Consts
import Verif.Proofs.SeriesReal
import Verif.Props.Fp192

/-!
# C67: the constants of 192-bit floating point numbers
-/

namespace Hmath
namespace Props

open scoped Nat

open F192 (mk' mg ulp sgn Nrm Z ZERO ONE mg_eq mg_pos ulp_pos nz_exp fval_mk mk_of_not_zero)

/-- `z` is a number of the format, and none is nearer to `v`. -/
def NearestReal (z : F192) (v : ℝ) : Prop :=
  FValid z ∧ ∀ w, FValid w → |((fval z : ℚ) : ℝ) - v| ≤ |((fval w : ℚ) : ℝ) - v|

/-- two numbers of the format differ by at least the unit of the larger one -/
private theorem gap {s : Bool} {m e : Nat} (hm : Nrm m) (h1 : 2 ^ 127 < m) {w : F192} (hw : FValid w) (hne : fval w ≠ sgn s * mg m e) :
    ulp e ≤ |fval w - sgn s * mg m e| := by
  have hu := ulp_pos e
  have hmu : ulp e ≤ mg m e := by
    rw [mg_eq]
    have : (1 : ℚ) ≤ m := by exact_mod_cast le_trans (by norm_num) h1.le
    nlinarith
  by_cases h0 : fval w = 0
  · rw [h0, zero_sub, abs_neg, abs_mul, F192.abs_sgn, one_mul, abs_of_pos (mg_pos hm)]
    exact hmu
  obtain ⟨t, m', e', hm', he', hz', rfl, hv⟩ := mk_of_not_zero hw h0
  rw [hv] at hne ⊢
  have hp' := mg_pos (e := e') hm'
  rcases lt_or_ge e' e with h | h
  · -- the other number is smaller
    have hlt : mg m' e' + ulp e ≤ mg m e := by
      have a1 : mg m' e' ≤ 2 ^ 127 * ulp e := by
        have b1 := F192.ulp_mono (show e' + 1 ≤ e by omega)
        rw [F192.ulp_add] at b1
        rw [mg_eq]
        have b2 : (m' : ℚ) ≤ 2 ^ 128 := by exact_mod_cast le_of_lt (lt_of_lt_of_le hm'.2 (by norm_num))
        have b3 := ulp_pos e'
        nlinarith
      have a2 : (2 ^ 127 + 1 : ℚ) * ulp e ≤ mg m e := by
        rw [mg_eq]
        exact mul_le_mul_of_nonneg_right (by exact_mod_cast h1) hu.le
      linarith
    have ha : |sgn t * mg m' e' - sgn s * mg m e| ≥ mg m e - mg m' e' := by
      have := abs_sub_abs_le_abs_sub (sgn s * mg m e) (sgn t * mg m' e')
      rw [abs_mul, abs_mul, F192.abs_sgn, F192.abs_sgn, one_mul, one_mul, abs_of_pos (mg_pos hm), abs_of_pos hp', abs_sub_comm] at this
      exact this
    linarith
  · -- both are multiples of the unit
    obtain ⟨k, rfl⟩ := Nat.exists_eq_add_of_le h
    have e1 : sgn t * mg m' (e + k) - sgn s * mg m e = (((if t then -1 else 1) * (m' * 2 ^ k : Nat) - (if s then -1 else 1) * (m : Nat) : ℤ) : ℚ) * ulp e := by
      have c1 : sgn t = (((if t then -1 else 1) : ℤ) : ℚ) := by cases t <;> simp [sgn]
      have c2 : sgn s = (((if s then -1 else 1) : ℤ) : ℚ) := by cases s <;> simp [sgn]
      rw [mg_eq, mg_eq, F192.ulp_add, c1, c2]
      push_cast
      ring
    rw [e1] at ⊢
    have hne' : ((if t then -1 else 1) * (m' * 2 ^ k : Nat) - (if s then -1 else 1) * (m : Nat) : ℤ) ≠ 0 := by
      intro h
      rw [h, Int.cast_zero, zero_mul] at e1
      exact hne (sub_eq_zero.1 e1)
    rw [abs_mul, abs_of_pos hu]
    have : (1 : ℚ) ≤ |((((if t then -1 else 1) * (m' * 2 ^ k : Nat) - (if s then -1 else 1) * (m : Nat) : ℤ)) : ℚ)| := by
      exact_mod_cast Int.one_le_abs hne'
    nlinarith

private theorem nearest_real {d k : Nat} {v : ℝ} (hd : 0 < d) (hd' : d < 2 ^ 127) (hk : k < 281474976710656) (h : |((2 ^ 127 + d : Nat) / 2 ^ k : ℝ) - v| ≤ 1 / 2 / 2 ^ k) :
    NearestReal ⟨d, 281474976710656 - k⟩ v := by
  have hN : Nrm (2 ^ 127 + d) := ⟨by omega, by omega⟩
  have hx : (⟨d, 281474976710656 - k⟩ : F192) = mk' false (2 ^ 127 + d) (281474976710656 - k) := by
    have : F192.dg false (2 ^ 127 + d) = d := by rw [F192.dg_false]; omega
    rw [mk', this]
  have he : 0 < 281474976710656 - k := by omega
  have hm : mg (2 ^ 127 + d) (281474976710656 - k) = ((2 ^ 127 + d : Nat) : ℚ) / 2 ^ k := F192.mg_coeff_sub hk.le
  have hu : ulp (281474976710656 - k) = 1 / 2 ^ k := by
    have := F192.mg_coeff_sub (m := 1) hk.le
    rw [mg_eq, Nat.cast_one, one_mul] at this
    exact this
  rw [hx]
  refine ⟨F192.valid_mk hN (by omega), fun w hw => ?_⟩
  have hv := fval_mk (s := false) hN (nz_exp he)
  by_cases hne : fval w = sgn false * mg (2 ^ 127 + d) (281474976710656 - k)
  · rw [hv, hne]
  · have hg := gap hN (by omega) hw hne
    rw [← hv] at hg
    have hg' : ((ulp (281474976710656 - k) : ℚ) : ℝ) ≤ |((fval w : ℚ) : ℝ) - ((fval (mk' false (2 ^ 127 + d) (281474976710656 - k)) : ℚ) : ℝ)| := by
      exact_mod_cast hg
    rw [hv, F192.sgn_false, one_mul, hm] at hg' ⊢
    rw [hu] at hg'
    push_cast at hg' h ⊢
    have := abs_sub_le ((fval w : ℚ) : ℝ) v (((2 : ℝ) ^ 127 + d) / 2 ^ k)
    rw [abs_sub_comm v] at this
    have e2 : (1 : ℝ) / 2 ^ k = 1 / 2 / 2 ^ k + 1 / 2 / 2 ^ k := by ring
    linarith

/-- from bounds for the real number -/
private theorem nearest_real' {d k : Nat} {v : ℝ} (hd : 0 < d) (hd' : d < 2 ^ 127) (hk : k < 281474976710656) (h1 : (((2 ^ 127 + d : Nat) - 1 / 2 : ℚ) / 2 ^ k : ℚ) ≤ v)
    (h2 : v ≤ (((2 ^ 127 + d : Nat) + 1 / 2 : ℚ) / 2 ^ k : ℚ)) : NearestReal ⟨d, 281474976710656 - k⟩ v := by
  refine nearest_real hd hd' hk ?_
  push_cast at h1 h2 ⊢
  rw [abs_le]
  rw [sub_div] at h1
  rw [add_div _ (1 / 2 : ℝ)] at h2
  constructor <;> linarith

theorem pi_rat {a b : ℚ} (h1 : a ≤ bbpSum 40) (h2 : bbpSum 40 + 1 / (2 * 16 ^ 40) ≤ b) : (a : ℝ) ≤ Real.pi ∧ Real.pi ≤ b := by
  obtain ⟨p1, p2⟩ := RealSeries.pi_bound (n := 40) (by norm_num)
  have q1 : (a : ℝ) ≤ ((bbpSum 40 : ℚ) : ℝ) := by exact_mod_cast h1
  have q2 : ((bbpSum 40 + 1 / (2 * 16 ^ 40) : ℚ) : ℝ) ≤ b := by exact_mod_cast h2
  push_cast at q2
  constructor <;> linarith

/-- Pi and its parts. -/
theorem C67_pi : NearestReal F192.PI Real.pi ∧ NearestReal F192.PI_OVER_2 (Real.pi / 2) ∧ NearestReal F192.PI_OVER_3 (Real.pi / 3) ∧
    NearestReal F192.PI_OVER_4 (Real.pi / 4) ∧ NearestReal F192.PI_OVER_6 (Real.pi / 6) := by
  have key : ∀ (d k c : Nat), 0 < d → d < 2 ^ 127 → k < 281474976710656 → 0 < c →
      c * (((2 ^ 127 + d : Nat) - 1 / 2 : ℚ) / 2 ^ k) ≤ bbpSum 40 → bbpSum 40 + 1 / (2 * 16 ^ 40) ≤ c * (((2 ^ 127 + d : Nat) + 1 / 2 : ℚ) / 2 ^ k) →
      NearestReal ⟨d, 281474976710656 - k⟩ (Real.pi / c) := by
    intro d k c h1 h2 h3 h4 h5 h6
    obtain ⟨p1, p2⟩ := pi_rat h5 h6
    have hc : (0 : ℝ) < c := by exact_mod_cast h4
    refine nearest_real' h1 h2 h3 ?_ ?_
    · rw [le_div_iff₀ hc, mul_comm]
      exact_mod_cast p1
    · rw [div_le_iff₀ hc, mul_comm]
      exact_mod_cast p2
  have h1 := key 97115962555772455233232789574583590097 126 1 (by norm_num) (by norm_num) (by norm_num) (by norm_num) (by decide +kernel) (by decide +kernel)
  have h2 := key 97115962555772455233232789574583590097 127 2 (by norm_num) (by norm_num) (by norm_num) (by norm_num) (by decide +kernel) (by decide +kernel)
  have h3 := key 8030247217025226244926091811094358155 127 3 (by norm_num) (by norm_num) (by norm_num) (by norm_num) (by decide +kernel) (by decide +kernel)
  have h4 := key 97115962555772455233232789574583590097 128 4 (by norm_num) (by norm_num) (by norm_num) (by norm_num) (by decide +kernel) (by decide +kernel)
  have h6 := key 8030247217025226244926091811094358155 128 6 (by norm_num) (by norm_num) (by norm_num) (by norm_num) (by decide +kernel) (by decide +kernel)
  rw [Nat.cast_one, div_one] at h1
  exact ⟨h1, h2, h3, h4, h6⟩

theorem e_rat {a b : ℚ} (h1 : a ≤ expSum 40 1) (h2 : expSum 40 1 + 2 / (40 ! : ℕ) ≤ b) : (a : ℝ) ≤ Real.exp 1 ∧ Real.exp 1 ≤ b := by
  obtain ⟨p1, p2⟩ := RealSeries.e_bound (n := 40) (by norm_num)
  have q1 : (a : ℝ) ≤ ((expSum 40 1 : ℚ) : ℝ) := by exact_mod_cast h1
  have q2 : ((expSum 40 1 + 2 / (40 ! : ℕ) : ℚ) : ℝ) ≤ b := by exact_mod_cast h2
  rw [Rat.cast_add, Rat.cast_div, Rat.cast_natCast] at q2
  push_cast at q2
  constructor <;> linarith

/-- Euler's number. -/
theorem C67_e : NearestReal F192.E (Real.exp 1) := by
  obtain ⟨h1, h2⟩ := e_rat (a := ((2 ^ 127 + 61104660176085852556040455244950093042 : Nat) - 1 / 2 : ℚ) / 2 ^ 126)
    (b := ((2 ^ 127 + 61104660176085852556040455244950093042 : Nat) + 1 / 2 : ℚ) / 2 ^ 126) (by decide +kernel) (by decide +kernel)
  exact nearest_real' (d := 61104660176085852556040455244950093042) (k := 126) (by norm_num) (by norm_num) (by norm_num) h1 h2

theorem ln2_rat {a b : ℚ} (h1 : a ≤ ln2Sum 140) (h2 : ln2Sum 140 + 1 / (141 * 2 ^ 140) ≤ b) : (a : ℝ) ≤ Real.log 2 ∧ Real.log 2 ≤ b := by
  obtain ⟨p1, p2⟩ := RealSeries.ln2_bound 140
  have q1 : (a : ℝ) ≤ ((ln2Sum 140 : ℚ) : ℝ) := by exact_mod_cast h1
  have q2 : ((ln2Sum 140 + 1 / (141 * 2 ^ 140) : ℚ) : ℝ) ≤ b := by exact_mod_cast h2
  push_cast at q2 p2
  norm_num at q2 p2
  constructor <;> linarith

/-- the logarithm of `1 + a` from 141 terms -/
theorem log_rat {a lo hi : ℚ} (ha : 0 ≤ a) (h1 : lo ≤ logSum 141 a - a ^ 142 / 142) (h2 : logSum 141 a ≤ hi) :
    (lo : ℝ) ≤ Real.log (1 + a) ∧ Real.log (1 + a) ≤ hi := by
  have ha' : (0 : ℝ) ≤ a := by exact_mod_cast ha
  obtain ⟨p1, p2⟩ := RealSeries.rlog_pos (n := 141) (by decide) ha'
  rw [← RealSeries.rlog_cast] at p1 p2
  have q1 : (lo : ℝ) ≤ ((logSum 141 a - a ^ 142 / 142 : ℚ) : ℝ) := by exact_mod_cast h1
  have q2 : ((logSum 141 a : ℚ) : ℝ) ≤ hi := by exact_mod_cast h2
  push_cast at q1 p2
  norm_num at q1 p2
  constructor <;> linarith

/-- The natural logarithms. -/
theorem C67_ln : NearestReal F192.LN_2 (Real.log 2) ∧ NearestReal F192.LN_3 (Real.log 3) ∧ NearestReal F192.LN_10 (Real.log 10) := by
  refine ⟨?_, ?_, ?_⟩
  · obtain ⟨h1, h2⟩ := ln2_rat (a := ((2 ^ 127 + 65724579765044062406256839048270378671 : Nat) - 1 / 2 : ℚ) / 2 ^ 128)
      (b := ((2 ^ 127 + 65724579765044062406256839048270378671 : Nat) + 1 / 2 : ℚ) / 2 ^ 128) (by decide +kernel) (by decide +kernel)
    exact nearest_real' (d := 65724579765044062406256839048270378671) (k := 128) (by norm_num) (by norm_num) (by norm_num) h1 h2
  · obtain ⟨h1, h2⟩ := ln2_rat (a := ln2Sum 140) (b := ln2Sum 140 + 1 / (141 * 2 ^ 140)) le_rfl le_rfl
    obtain ⟨h3, h4⟩ := log_rat (a := 1 / 2) (lo := logSum 141 (1 / 2) - (1 / 2) ^ 142 / 142) (hi := logSum 141 (1 / 2)) (by norm_num) le_rfl le_rfl
    have e : Real.log 3 = Real.log 2 + Real.log (1 + ((1 / 2 : ℚ) : ℝ)) := by
      rw [← Real.log_mul (by norm_num) (by norm_num)]
      norm_num
    refine nearest_real' (d := 16778011497737602070059788614351306331) (k := 127) (by norm_num) (by norm_num) (by norm_num) ?_ ?_
    · refine le_trans (Rat.cast_le.2 (show _ ≤ ln2Sum 140 + (logSum 141 (1 / 2) - (1 / 2) ^ 142 / 142) by decide +kernel)) ?_
      rw [Rat.cast_add, e]
      exact add_le_add h1 h3
    · refine le_trans ?_ (Rat.cast_le.2 (show ln2Sum 140 + 1 / (141 * 2 ^ 140) + logSum 141 (1 / 2) ≤ _ by decide +kernel))
      rw [Rat.cast_add _ (logSum 141 (1 / 2)), e]
      exact add_le_add h2 h4
  · obtain ⟨h1, h2⟩ := ln2_rat (a := ln2Sum 140) (b := ln2Sum 140 + 1 / (141 * 2 ^ 140)) le_rfl le_rfl
    obtain ⟨h3, h4⟩ := log_rat (a := 1 / 4) (lo := logSum 141 (1 / 4) - (1 / 4) ^ 142 / 142) (hi := logSum 141 (1 / 4)) (by norm_num) le_rfl le_rfl
    have e : Real.log 10 = 3 * Real.log 2 + Real.log (1 + ((1 / 4 : ℚ) : ℝ)) := by
      have : (3 : ℝ) * Real.log 2 = Real.log (2 ^ 3) := by rw [Real.log_pow]; norm_num
      rw [this, ← Real.log_mul (by norm_num) (by norm_num)]
      norm_num
    refine nearest_real' (d := 25741092909751534969647316959977736745) (k := 126) (by norm_num) (by norm_num) (by norm_num) ?_ ?_
    · refine le_trans (Rat.cast_le.2 (show _ ≤ 3 * ln2Sum 140 + (logSum 141 (1 / 4) - (1 / 4) ^ 142 / 142) by decide +kernel)) ?_
      rw [Rat.cast_add, e, Rat.cast_mul]
      exact add_le_add (mul_le_mul_of_nonneg_left h1 (by norm_num)) h3
    · refine le_trans ?_ (Rat.cast_le.2 (show 3 * (ln2Sum 140 + 1 / (141 * 2 ^ 140)) + logSum 141 (1 / 4) ≤ _ by decide +kernel))
      rw [Rat.cast_add _ (logSum 141 (1 / 4)), e, Rat.cast_mul]
      exact add_le_add (mul_le_mul_of_nonneg_left h2 (by norm_num)) h4

private theorem sqrt_rat {d k n : Nat} (h1 : (2 * (2 ^ 127 + d) - 1) ^ 2 ≤ n * 4 * 4 ^ k) (h2 : n * 4 * 4 ^ k ≤ (2 * (2 ^ 127 + d) + 1) ^ 2) :
    ((((2 ^ 127 + d : Nat) - 1 / 2 : ℚ) / 2 ^ k : ℚ) : ℝ) ≤ Real.sqrt n ∧ Real.sqrt n ≤ (((2 ^ 127 + d : Nat) + 1 / 2 : ℚ) / 2 ^ k : ℚ) := by
  have c1 : ((2 * (2 ^ 127 + d : Nat) - 1 : ℝ)) ^ 2 ≤ n * 4 * 4 ^ k := by
    have : ((2 * (2 ^ 127 + d) - 1 : Nat) : ℝ) = 2 * (2 ^ 127 + d : Nat) - 1 := by
      rw [Nat.cast_sub (by omega)]
      push_cast
      ring
    rw [← this]
    exact_mod_cast h1
  have c2 : (n * 4 * 4 ^ k : ℝ) ≤ ((2 * (2 ^ 127 + d : Nat) + 1 : ℝ)) ^ 2 := by exact_mod_cast h2
  have hp : (0 : ℝ) < 2 ^ k := by positivity
  have e4 : (4 : ℝ) ^ k = 2 ^ k * 2 ^ k := by rw [← mul_pow]; norm_num
  constructor
  · refine Real.le_sqrt_of_sq_le ?_
    push_cast at c1 ⊢
    rw [div_pow, div_le_iff₀ (by positivity)]
    rw [e4] at c1
    nlinarith
  · rw [Real.sqrt_le_left (by push_cast; positivity)]
    push_cast at c2 ⊢
    rw [div_pow, le_div_iff₀ (by positivity)]
    rw [e4] at c2
    nlinarith

/-- The square roots. -/
theorem C67_sqrt : NearestReal F192.SQRT_2 (Real.sqrt 2) ∧ NearestReal F192.SQRT_3 (Real.sqrt 3) ∧ NearestReal F192.SQRT_10 (Real.sqrt 10) ∧
    NearestReal F192.ONE_OVER_SQRT_2 (1 / Real.sqrt 2) := by
  obtain ⟨a1, a2⟩ := sqrt_rat (d := 70474785707535279813346468761740951199) (k := 127) (n := 2) (by norm_num) (by norm_num)
  obtain ⟨b1, b2⟩ := sqrt_rat (d := 124551990752961009652400151969882971589) (k := 127) (n := 3) (by norm_num) (by norm_num)
  obtain ⟨c1, c2⟩ := sqrt_rat (d := 98875648305356569987839135600239050579) (k := 126) (n := 10) (by norm_num) (by norm_num)
  refine ⟨nearest_real' (by norm_num) (by norm_num) (by norm_num) a1 a2, nearest_real' (by norm_num) (by norm_num) (by norm_num) b1 b2,
    nearest_real' (by norm_num) (by norm_num) (by norm_num) c1 c2, ?_⟩
  have e : 1 / Real.sqrt 2 = Real.sqrt (2 : Nat) / 2 := by
    rw [Nat.cast_ofNat, div_eq_div_iff (by positivity) (by norm_num), one_mul]
    exact (Real.mul_self_sqrt (by norm_num)).symm
  rw [e]
  refine nearest_real' (d := 70474785707535279813346468761740951199) (k := 128) (by norm_num) (by norm_num) (by norm_num) ?_ ?_
  · rw [le_div_iff₀ (by norm_num)]
    refine le_trans (le_of_eq ?_) a1
    norm_num
  · rw [div_le_iff₀ (by norm_num)]
    refine le_trans a2 (le_of_eq ?_)
    norm_num

end Props
end Hmath
