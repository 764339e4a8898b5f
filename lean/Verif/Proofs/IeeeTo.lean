import Verif.Proofs.Ieee
import Verif.Proofs.SciRatio

/-!
# `Ratio` to floats
-/

namespace Hmath
namespace Ratio

/-! ### bit patterns -/

theorem bits_fields {m e : Nat} {s : Bool} {F R : Nat} (hF : F < 2 ^ e) (hR : R < 2 ^ m) :
    ((if s then 2 ^ (m + e) else 0) + F * 2 ^ m + R) / 2 ^ (m + e) % 2 = (if s then 1 else 0) ∧
    ((if s then 2 ^ (m + e) else 0) + F * 2 ^ m + R) / 2 ^ m % 2 ^ e = F ∧
    ((if s then 2 ^ (m + e) else 0) + F * 2 ^ m + R) % 2 ^ m = R := by
  have hlt : F * 2 ^ m + R < 2 ^ (m + e) := by
    rw [pow_add, mul_comm (2 ^ m)]
    calc F * 2 ^ m + R < F * 2 ^ m + 2 ^ m := by omega
      _ = (F + 1) * 2 ^ m := by ring
      _ ≤ _ := Nat.mul_le_mul_right _ hF
  have hp : 0 < 2 ^ (m + e) := by positivity
  have hpm : 0 < 2 ^ m := by positivity
  have hdm : (F * 2 ^ m + R) / 2 ^ m = F := by
    rw [add_comm, Nat.add_mul_div_right _ _ hpm, Nat.div_eq_of_lt hR, zero_add]
  have hmm : (F * 2 ^ m + R) % 2 ^ m = R := by
    rw [add_comm, Nat.add_mul_mod_self_right, Nat.mod_eq_of_lt hR]
  cases s
  · simp only [Bool.false_eq_true, if_false, zero_add]
    exact ⟨by rw [Nat.div_eq_of_lt hlt], by rw [hdm, Nat.mod_eq_of_lt hF], hmm⟩
  · simp only [if_true]
    rw [add_assoc]
    refine ⟨?_, ?_, ?_⟩
    · rw [Nat.add_div_left _ hp, Nat.div_eq_of_lt hlt]
    · rw [pow_add, Nat.mul_add_div hpm, hdm, Nat.add_mod_left, Nat.mod_eq_of_lt hF]
    · rw [pow_add, Nat.mul_add_mod, hmm]

theorem floatVal_fields {m e : Nat} {s : Bool} {F R : Nat} (hF : F < 2 ^ e) (hR : R < 2 ^ m) :
    floatVal m e ((if s then 2 ^ (m + e) else 0) + F * 2 ^ m + R) =
      if F = 2 ^ e - 1 then if R = 0 then .inf s else .nan
      else if F = 0 then .finite ((if s then -1 else 1) * R * 2 ^ (1 - floatBias e - m : ℤ))
      else .finite ((if s then -1 else 1) * (2 ^ m + R) * 2 ^ (F - floatBias e - m : ℤ)) := by
  obtain ⟨h1, h2, h3⟩ := bits_fields (s := s) hF hR
  rw [floatVal, h1, h2, h3]
  cases s <;> simp

/-- the bit pattern of a subnormal number, the smallest normalised number included -/
theorem floatVal_sub {m e : Nat} {s : Bool} {r : Nat} (he : 2 ≤ e) (hr : r ≤ 2 ^ m) :
    floatVal m e ((if s then 2 ^ (m + e) else 0) + r) =
      .finite ((if s then -1 else 1) * r * 2 ^ (1 - floatBias e - m : ℤ)) := by
  have h4 : 2 ^ 2 ≤ 2 ^ e := Nat.pow_le_pow_right (by omega) he
  rcases Nat.lt_or_ge r (2 ^ m) with h | h
  · have := floatVal_fields (m := m) (e := e) (s := s) (F := 0) (R := r) (by positivity) h
    rw [zero_mul, add_zero] at this
    rw [this, if_neg (by omega), if_pos rfl]
  · obtain rfl : r = 2 ^ m := by omega
    have := floatVal_fields (m := m) (e := e) (s := s) (F := 1) (R := 0) (by omega) (by positivity)
    rw [one_mul, add_zero] at this
    rw [this, if_neg (by omega), if_neg (by omega)]
    push_cast
    rw [add_zero]

theorem or_sign {m e : Nat} {s : Bool} {x : Nat} (h : x < 2 ^ (m + e)) :
    (if s then 2 ^ (m + e) else 0) ||| x = (if s then 2 ^ (m + e) else 0) + x := by
  cases s
  · simp
  · rw [if_pos rfl]
    have := Nat.two_pow_add_eq_or_of_lt h 1
    rw [mul_one] at this
    exact this.symm

theorem or_frac {m F R : Nat} (h : R < 2 ^ m) : F * 2 ^ m ||| R = F * 2 ^ m + R := by
  rw [mul_comm]
  exact (Nat.two_pow_add_eq_or_of_lt h F).symm

/-- what `|` makes of a mantissa that overflowed -/
theorem or_carry {m F : Nat} : F * 2 ^ m ||| 2 ^ m = (F + (F + 1) % 2) * 2 ^ m := by
  have h1 : (2 : Nat) ^ m = 1 <<< m := by rw [Nat.one_shiftLeft]
  have h2 : F * 2 ^ m = F <<< m := by rw [Nat.shiftLeft_eq]
  have h3 : F ||| 1 = F + (F + 1) % 2 := by
    rcases Nat.even_or_odd' F with ⟨k, rfl | rfl⟩
    · have := Nat.two_pow_add_eq_or_of_lt (i := 1) (b := 1) (by norm_num) k
      rw [pow_one] at this
      rw [← this]; omega
    · have := Nat.two_pow_add_eq_or_of_lt (i := 1) (b := 1) (by norm_num) k
      rw [pow_one] at this
      rw [this, Nat.or_assoc, Nat.or_self, ← this]; omega
  conv_lhs => rw [h2, h1, ← Nat.shiftLeft_or_distrib, h3, Nat.shiftLeft_eq]

/-! ### logarithm -/

theorem bi_log2_floor_c (z : Int) (hl : (ofInt z).mag.length ≤ 2 ^ 58) :
    BigI.log2 (ofInt z) = pure (ofInt (Nat.log2 z.natAbs)) := by
  rw [BigI.log2, UBig.log2_eq (ivalid_ofInt z).mag hl, pure_bind, BigI.mag_ofInt, val_ofNat,
    BigI.from_ubi_c (z := (Nat.log2 z.natAbs : Int)) (by rw [Int.natAbs_natCast]) (fun _ => by simp)]

theorem log_bounds {n d : Nat} (hn : n ≠ 0) (hd : d ≠ 0) :
    (2 : ℚ) ^ ((Nat.log2 n : ℤ) - Nat.log2 d - 1) < (n : ℚ) / d ∧
      (n : ℚ) / d < 2 ^ ((Nat.log2 n : ℤ) - Nat.log2 d + 1) := by
  have a1 : (2 : ℚ) ^ Nat.log2 n ≤ n := by exact_mod_cast Nat.log2_self_le hn
  have a2 : (n : ℚ) < 2 ^ (Nat.log2 n + 1) := by exact_mod_cast Nat.lt_log2_self (n := n)
  have b1 : (2 : ℚ) ^ Nat.log2 d ≤ d := by exact_mod_cast Nat.log2_self_le hd
  have b2 : (d : ℚ) < 2 ^ (Nat.log2 d + 1) := by exact_mod_cast Nat.lt_log2_self (n := d)
  have hdp : (0 : ℚ) < d := by exact_mod_cast Nat.pos_of_ne_zero hd
  constructor
  · have : (2 : ℚ) ^ ((Nat.log2 n : ℤ) - Nat.log2 d - 1) = 2 ^ Nat.log2 n / 2 ^ (Nat.log2 d + 1) := by
      rw [sub_sub, zpow_sub₀ (by norm_num), zpow_natCast]
      congr 1
    rw [this, div_lt_div_iff₀ (by positivity) hdp]
    have hnp : (0 : ℚ) < n := lt_of_lt_of_le (by positivity) a1
    calc (2 : ℚ) ^ Nat.log2 n * d ≤ n * d := mul_le_mul_of_nonneg_right a1 hdp.le
      _ < _ := mul_lt_mul_of_pos_left b2 hnp
  · have : (2 : ℚ) ^ ((Nat.log2 n : ℤ) - Nat.log2 d + 1) = 2 ^ (Nat.log2 n + 1) / 2 ^ Nat.log2 d := by
      rw [show (Nat.log2 n : ℤ) - Nat.log2 d + 1 = ((Nat.log2 n + 1 : Nat) : ℤ) - Nat.log2 d by push_cast; ring,
        zpow_sub₀ (by norm_num), zpow_natCast, zpow_natCast]
    rw [this, div_lt_div_iff₀ hdp (by positivity)]
    calc (n : ℚ) * 2 ^ Nat.log2 d ≤ n * d := mul_le_mul_of_nonneg_left b1 (by positivity)
      _ < _ := mul_lt_mul_of_pos_right a2 hdp

/-- `⌊log2 |num|⌋ - ⌊log2 den⌋` -/
def alog (q : ℚ) : Int := (Nat.log2 q.num.natAbs : Int) - Nat.log2 q.den

theorem alog_bounds {q : ℚ} (h0 : q ≠ 0) : (2 : ℚ) ^ (alog q - 1) < |q| ∧ |q| < 2 ^ (alog q + 1) := by
  have := log_bounds (n := q.num.natAbs) (d := q.den) (by simpa using h0) q.den_nz
  have hq : |q| = (q.num.natAbs : ℚ) / q.den := by
    conv_lhs => rw [← Rat.num_div_den q, abs_div, Nat.abs_cast]
    rw [Nat.cast_natAbs, Int.cast_abs]
  rw [hq]
  exact this

theorem log2_lt_of_length {d : Nat} (hd : d ≠ 0) (hl : (ofNat d).length ≤ 2 ^ 26) : Nat.log2 d < 2 ^ 31 := by
  obtain ⟨L, hL⟩ : ∃ L : Nat, L = 2 ^ 26 := ⟨_, rfl⟩
  rw [← hL] at hl
  have h1 : d < B32 ^ L := (length_ofNat_le_iff (by omega)).1 hl
  have h2 : d < 2 ^ (32 * L) := by
    rw [pow_mul]; exact h1
  have := (Nat.log2_lt hd).2 h2
  omega

section
variable {f : Fmt} {m e : Nat} (h : FmtOk f m e)
include h

/-- the part of `to_ieee754` before the encoding -/
theorem to_c {q : ℚ} (h0 : q ≠ 0) (hn : (ofInt q.num).mag.length ≤ 2 ^ 58) (hd : (ofInt q.den).mag.length ≤ 2 ^ 26) :
    (floatBias e + 1 < alog q → to_ieee754 f (ofRat q) =
      (to_scientific_notation (ofRat q) 5 >>= fun _ => pure (.error .notInRange))) ∧
    (alog q ≤ floatBias e + 1 → ∃ E : Int, 2 ^ E ≤ |q| ∧ |q| < 2 ^ (E + 1) ∧ E ≤ alog q ∧ -2147483648 ≤ E ∧
      to_ieee754 f (ofRat q) = encode f (ofRat q) (decide (q < 0)) E (rhd ((|q| / 2 ^ E - 1) * 2 ^ m))) := by
  obtain ⟨hb1, hb2, hb3⟩ := h.bias_le
  have hq : (if decide (q < 0) = true then negate_mut (ofRat q) else ofRat q) = ofRat |q| := by
    by_cases hc : q < 0
    · rw [if_pos (by simpa using hc), negate_mut_c, abs_of_neg hc]
    · rw [if_neg (by simpa using hc), abs_of_nonneg (not_lt.1 hc)]
  have hqp : 0 < |q| := abs_pos.2 h0
  have hstart : ∀ b : Bool, to_ieee754 f (ofRat q) = (do
      let big ← BigI.gt_i32 (ofInt (alog q)) (floatBias e + 1)
      if big then do
        let _ ← to_scientific_notation (ofRat q) 5
        pure (.error .notInRange)
      else do
        let r ← BigI.to_i32 (ofInt (alog q))
        let al ← unwrapR r
        let p ← prescale (ofRat |q|) al
        let p ← halve p.1 p.2
        let p ← double p.1 p.2
        let frac ← mantissa f p.1
        encode f (ofRat q) (decide (q < 0)) p.2 frac) := by
    intro _
    unfold to_ieee754
    rw [is_zero_c, if_neg (by simpa using h0), is_neg_c]
    simp only [hq]
    rw [numer_ofRat, denom_ofRat, bi_log2_floor_c _ hn, pure_bind,
      bi_log2_floor_c _ (le_trans hd (by norm_num)), pure_bind, BigI.sub_c, pure_bind, Int.natAbs_natCast, h.bias]
    rfl
  rw [hstart true, BigI.gt_i32_c (by unfold IsI32; omega) (by omega), pure_bind]
  refine ⟨fun hbig => ?_, fun hsm => ?_⟩
  · rw [if_pos (by simpa using hbig)]
  · rw [if_neg (by simpa using hsm)]
    have hlow : -2147483648 < alog q := by
      have := log2_lt_of_length q.den_nz (by rwa [BigI.mag_ofInt, Int.natAbs_natCast] at hd)
      unfold alog
      omega
    obtain ⟨a1, a2⟩ := alog_bounds h0
    obtain ⟨E, e1, e2, e3, e4, e5⟩ := norm_c hqp a1 a2 hlow (by omega)
    have hz : (0 : ℚ) < 2 ^ E := zpow_pos (by norm_num) _
    have g1 : (2 : ℚ) ^ E ≤ |q| := by rw [le_div_iff₀ hz, one_mul] at e2; exact e2
    have g2 : |q| < 2 ^ (E + 1) := by
      rw [div_lt_iff₀ hz] at e3
      rw [zpow_add₀ (by norm_num), zpow_one, mul_comm]; exact e3
    refine ⟨E, g1, g2, ?_, e4, ?_⟩
    · have : (2 : ℚ) ^ E < 2 ^ (alog q + 1) := lt_of_le_of_lt g1 a2
      have := (zpow_lt_zpow_iff_right₀ (by norm_num : (1 : ℚ) < 2)).1 this
      omega
    · rw [BigI.to_i32_c, if_pos (by omega), pure_bind]
      show (prescale (ofRat |q|) (alog q) >>= fun p => halve p.1 p.2 >>= fun p => double p.1 p.2 >>= fun p =>
        mantissa f p.1 >>= fun frac => encode f (ofRat q) (decide (q < 0)) p.2 frac) = _
      have : (prescale (ofRat |q|) (alog q) >>= fun p => halve p.1 p.2 >>= fun p => double p.1 p.2 >>= fun p =>
        mantissa f p.1 >>= fun frac => encode f (ofRat q) (decide (q < 0)) p.2 frac) =
        ((prescale (ofRat |q|) (alog q) >>= fun p => halve p.1 p.2 >>= fun p => double p.1 p.2) >>= fun p =>
        mantissa f p.1 >>= fun frac => encode f (ofRat q) (decide (q < 0)) p.2 frac) := by
        simp only [bind_assoc]
      rw [this, e1, pure_bind]
      simp only []
      rw [mantissa_c h e2 e3, pure_bind]

/-- encoding of a normalised number -/
theorem encode_normal (a : Ratio) (neg : Bool) {E : Int} {F : Nat} (h1 : 1 - (floatBias e : Int) ≤ E)
    (h2 : E ≤ floatBias e + 1) (hF : F ≤ 2 ^ m) :
    encode f a neg E F = pure (.ok ((if neg then 2 ^ (m + e) else 0) + ((E + floatBias e).toNat * 2 ^ m ||| F))) := by
  obtain ⟨hb1, hb2, hb3⟩ := h.bias_le
  have h3 : ((2 ^ e : Nat) : Int) = 2 * floatBias e + 2 := by exact_mod_cast hb3.symm
  have hcast : ((2 : Int) ^ e) = 2 * floatBias e + 2 := by exact_mod_cast hb3.symm
  unfold encode
  rw [h.bias, if_neg (by omega), pack, h.bias, i32Add_ok (by omega) (by omega), pure_bind, h.expMod, h.bits, h.mant,
    Nat.add_sub_cancel]
  rw [if_neg (by push_cast; rw [hcast]; omega)]
  obtain ⟨k, hk⟩ : ∃ k : Nat, E + floatBias e = k := ⟨(E + floatBias e).toNat, by omega⟩
  rw [hk, Int.toNat_natCast]
  have hke : k < 2 ^ e := by omega
  have hlt : k * 2 ^ m < 2 ^ (m + e) := by
    rw [pow_add, mul_comm (2 ^ m)]
    exact Nat.mul_lt_mul_of_pos_right hke (by positivity)
  rw [Nat.mod_eq_of_lt (lt_trans hlt (Nat.pow_lt_pow_right (by omega) (by omega))), Nat.or_assoc, or_sign]
  refine Nat.or_lt_two_pow hlt ?_
  exact lt_of_le_of_lt hF (Nat.pow_lt_pow_right (by omega) (by have := h.he; omega))

/-- encoding of a number below the smallest normalised number -/
theorem encode_sub (a : Ratio) (neg : Bool) {E : Int} {F : Nat} (h1 : E ≤ -(floatBias e : Int)) (hF : F ≤ 2 ^ m) :
    ∃ r : Nat, r ≤ 2 ^ m ∧ |(r : ℚ) - (2 ^ m + F) * 2 ^ (E + floatBias e - 1 : ℤ)| ≤ 1 / 2 ∧
      encode f a neg E F = pure (.ok (if r = 0 then 0 else (if neg then 2 ^ (m + e) else 0) + r)) := by
  obtain ⟨hb1, hb2, hb3⟩ := h.bias_le
  have he := h.he
  obtain ⟨S, hS⟩ : ∃ S : Nat, -(floatBias e : Int) - E = S := ⟨(-(floatBias e : Int) - E).toNat, by omega⟩
  have p5 : 2 ^ (m + 5) = 2 ^ m * 32 := by rw [pow_add]; norm_num
  have hN : (2 ^ m + F) * 16 ≤ 2 ^ (m + 5) := by rw [p5]; omega
  have hNb : (2 ^ m + F) * 16 < 2 ^ (m + e) := lt_of_le_of_lt hN (Nat.pow_lt_pow_right (by omega) (by omega))
  have hbits : 2 ^ (m + e) < 2 ^ (m + e + 1) := Nat.pow_lt_pow_right (by omega) (by omega)
  have hshift : subShift f E F = pure ((2 ^ m + F) * 16 / 2 ^ min S (m + e)) := by
    unfold subShift
    rw [h.bits, h.mant, h.bias, uAdd_eq (by omega), pure_bind, uMul_eq (by rw [add_comm F]; omega), pure_bind, add_comm F]
    by_cases hc : E < -(floatBias e : Int)
    · have : (min (-(floatBias e : Int) - E) (((m + e + 1 : Nat) : Int) - 1)).toNat = min S (m + e) := by
        rw [hS]; omega
      rw [if_pos hc, this, uShr_eq (by omega)]
    · have hS0 : S = 0 := by omega
      rw [if_neg hc, hS0, Nat.zero_min, pow_zero, Nat.div_one]
  refine ⟨((2 ^ m + F) * 16 / 2 ^ min S (m + e) + 16) / 32, ?_, ?_, ?_⟩
  · have : (2 ^ m + F) * 16 / 2 ^ min S (m + e) ≤ (2 ^ m + F) * 16 := Nat.div_le_self _ _
    omega
  · have hA : ((2 : ℚ) ^ m + F) * 2 ^ (E + floatBias e - 1 : ℤ) = ((2 ^ m + F : Nat) * 16 : Nat) / 2 ^ S / 32 := by
      have : E + (floatBias e : Int) - 1 = -((S + 1 : Nat) : Int) := by push_cast; omega
      rw [this, zpow_neg, zpow_natCast, pow_succ]
      push_cast
      field_simp
      norm_num
    rw [hA]
    generalize (2 ^ m + F) * 16 = N at hN hNb
    by_cases hc : S ≤ m + e
    · rw [min_eq_left hc]
      have hp : (0 : ℚ) < 2 ^ S := by positivity
      have a1 : ((N / 2 ^ S : Nat) : ℚ) ≤ N / 2 ^ S := by
        rw [le_div_iff₀ hp]
        have := Nat.div_mul_le_self N (2 ^ S)
        have h2 : ((N / 2 ^ S * 2 ^ S : Nat) : ℚ) ≤ ((N : Nat) : ℚ) := by exact_mod_cast this
        push_cast at h2
        linarith
      have a2 : (N : ℚ) / 2 ^ S < ((N / 2 ^ S : Nat) : ℚ) + 1 := by
        rw [div_lt_iff₀ hp]
        have := Nat.lt_div_mul_add (a := N) (b := 2 ^ S) (by positivity)
        have h2 : ((N : Nat) : ℚ) < ((N / 2 ^ S * 2 ^ S + 2 ^ S : Nat) : ℚ) := by exact_mod_cast this
        push_cast at h2
        linarith
      generalize N / 2 ^ S = g at a1 a2
      obtain ⟨r, hr⟩ : ∃ r, r = (g + 16) / 32 := ⟨_, rfl⟩
      rw [← hr]
      have b1 : ((32 * r : Nat) : ℚ) ≤ ((g + 16 : Nat) : ℚ) := by
        have : 32 * r ≤ g + 16 := by omega
        exact_mod_cast this
      have b2 : ((g + 16 : Nat) : ℚ) ≤ ((32 * r + 31 : Nat) : ℚ) := by
        have : g + 16 ≤ 32 * r + 31 := by omega
        exact_mod_cast this
      push_cast at b1 b2
      rw [abs_le]
      constructor <;> linarith
    · rw [min_eq_right (by omega), Nat.div_eq_of_lt hNb]
      have hsmall : (N : ℚ) / 2 ^ S ≤ 1 := by
        rw [div_le_one (by positivity)]
        have : N ≤ 2 ^ S := le_trans hNb.le (Nat.pow_le_pow_right (by omega) (by omega))
        exact_mod_cast this
      have hpos : (0 : ℚ) ≤ (N : ℚ) / 2 ^ S := by positivity
      have e0 : (((0 + 16) / 32 : Nat) : ℚ) = 0 := by norm_num
      rw [e0, abs_le]
      constructor <;> linarith
  · have hif : ∀ g : Nat, (if g % 32 > 15 then g / 32 + 1 else g / 32) = (g + 16) / 32 := by
      intro g
      split_ifs <;> omega
    unfold encode
    rw [h.bias, if_pos (by omega), hshift, pure_bind]
    simp only [hif]
    generalize hr : ((2 ^ m + F) * 16 / 2 ^ min S (m + e) + 16) / 32 = r
    have hrm : r ≤ 2 ^ m := by
      have : (2 ^ m + F) * 16 / 2 ^ min S (m + e) ≤ (2 ^ m + F) * 16 := Nat.div_le_self _ _
      omega
    by_cases h0 : r = 0
    · rw [if_pos h0, if_pos h0]
    · rw [if_neg h0, if_neg h0, pack, h.bias, i32Add_ok (by omega) (by omega), pure_bind, h.expMod, h.bits, h.mant,
        Nat.add_sub_cancel, neg_add_cancel]
      have h3 : ((2 ^ e : Nat) : Int) = 2 * floatBias e + 2 := by exact_mod_cast hb3.symm
      rw [h3, if_neg (by omega)]
      rw [Int.toNat_zero, Nat.zero_mul, Nat.zero_mod, Nat.or_zero, or_sign]
      exact lt_of_le_of_lt hrm (Nat.pow_lt_pow_right (by omega) (by omega))

end

/-! ## the conversion as a whole -/

theorem sgn_mul_abs (q : ℚ) : (if decide (q < 0) = true then (-1 : ℚ) else 1) * |q| = q := by
  by_cases hc : q < 0
  · rw [if_pos (by simpa using hc), abs_of_neg hc]; ring
  · rw [if_neg (by simpa using hc), abs_of_nonneg (not_lt.1 hc)]; ring

theorem sgn_abs (b : Bool) : |(if b = true then (-1 : ℚ) else 1)| = 1 := by cases b <;> simp

theorem expo_unique {x : ℚ} {E E' : Int} (h1 : 2 ^ E ≤ x) (h2 : x < 2 ^ (E + 1)) (h3 : 2 ^ E' ≤ x) (h4 : x < 2 ^ (E' + 1)) :
    E = E' := by
  have a := (zpow_lt_zpow_iff_right₀ (by norm_num : (1 : ℚ) < 2)).1 (lt_of_le_of_lt h1 h4)
  have b := (zpow_lt_zpow_iff_right₀ (by norm_num : (1 : ℚ) < 2)).1 (lt_of_le_of_lt h3 h2)
  omega

theorem alog_range {q : ℚ} (h0 : q ≠ 0) {E : Int} (h1 : 2 ^ E ≤ |q|) (h2 : |q| < 2 ^ (E + 1)) : E ≤ alog q ∧ alog q ≤ E + 1 := by
  obtain ⟨a1, a2⟩ := alog_bounds h0
  have a := (zpow_lt_zpow_iff_right₀ (by norm_num : (1 : ℚ) < 2)).1 (lt_of_le_of_lt h1 a2)
  have b := (zpow_lt_zpow_iff_right₀ (by norm_num : (1 : ℚ) < 2)).1 (lt_trans a1 h2)
  omega

section
variable {f : Fmt} {m e : Nat} (h : FmtOk f m e)
include h

theorem to_encode {q : ℚ} (h0 : q ≠ 0) (hn : (ofNat q.num.natAbs).length ≤ 2 ^ 58) (hd : (ofNat q.den).length ≤ 2 ^ 26)
    {E : Int} (h1 : 2 ^ E ≤ |q|) (h2 : |q| < 2 ^ (E + 1)) (ha : alog q ≤ floatBias e + 1) :
    to_ieee754 f (ofRat q) = encode f (ofRat q) (decide (q < 0)) E (rhd ((|q| / 2 ^ E - 1) * 2 ^ m)) := by
  obtain ⟨-, k⟩ := to_c h h0 (by rwa [BigI.mag_ofInt]) (by rwa [BigI.mag_ofInt, Int.natAbs_natCast])
  obtain ⟨E', g1, g2, -, -, g3⟩ := k ha
  rw [g3, expo_unique h1 h2 g1 g2]

omit h in
/-- the mantissa is in range -/
theorem mant_range {x : ℚ} {E : Int} (h1 : 2 ^ E ≤ x) (h2 : x < 2 ^ (E + 1)) :
    0 ≤ (x / 2 ^ E - 1) * 2 ^ m ∧ (x / 2 ^ E - 1) * 2 ^ m < (2 ^ m : Nat) := by
  have hz : (0 : ℚ) < 2 ^ E := zpow_pos (by norm_num) _
  have hm : (0 : ℚ) < 2 ^ m := by positivity
  have g1 : 1 ≤ x / 2 ^ E := by rw [le_div_iff₀ hz]; linarith
  have g2 : x / 2 ^ E < 2 := by
    rw [div_lt_iff₀ hz]
    rw [zpow_add₀ (by norm_num), zpow_one] at h2; linarith
  refine ⟨mul_nonneg (by linarith) hm.le, ?_⟩
  push_cast
  nlinarith

/-- numbers in the normal range, all of whose mantissa bits do not round up to a carry -/
theorem to_normal {q : ℚ} (h0 : q ≠ 0) (hn : (ofNat q.num.natAbs).length ≤ 2 ^ 58) (hd : (ofNat q.den).length ≤ 2 ^ 26)
    {E : Int} (h1 : 2 ^ E ≤ |q|) (h2 : |q| < 2 ^ (E + 1)) (hE : 1 - (floatBias e : Int) ≤ E) (hE' : E ≤ floatBias e)
    (hR : rhd ((|q| / 2 ^ E - 1) * 2 ^ m) < 2 ^ m) :
    to_ieee754 f (ofRat q) = pure (.ok ((if decide (q < 0) = true then 2 ^ (m + e) else 0) +
      (E + floatBias e).toNat * 2 ^ m + rhd ((|q| / 2 ^ E - 1) * 2 ^ m))) ∧
    floatVal m e ((if decide (q < 0) = true then 2 ^ (m + e) else 0) +
      (E + floatBias e).toNat * 2 ^ m + rhd ((|q| / 2 ^ E - 1) * 2 ^ m)) =
      .finite ((if decide (q < 0) = true then -1 else 1) * (2 ^ m + rhd ((|q| / 2 ^ E - 1) * 2 ^ m) : ℚ) * 2 ^ (E - m : ℤ)) := by
  obtain ⟨hb1, hb2, hb3⟩ := h.bias_le
  have ha := (alog_range h0 h1 h2).2
  rw [to_encode h h0 hn hd h1 h2 (by omega), encode_normal h _ _ hE (by omega) hR.le, or_frac hR, ← add_assoc]
  refine ⟨rfl, ?_⟩
  rw [floatVal_fields (by omega) hR, if_neg (by omega), if_neg (by omega)]
  congr 3
  omega

omit h in
theorem normal_err {q : ℚ} {E : Int} (h1 : 2 ^ E ≤ |q|) (h2 : |q| < 2 ^ (E + 1)) :
    |(if decide (q < 0) = true then -1 else 1) * (2 ^ m + rhd ((|q| / 2 ^ E - 1) * 2 ^ m) : ℚ) * 2 ^ (E - m : ℤ) - q| ≤
      2 ^ (E - m - 1 : ℤ) := by
  have hz : (0 : ℚ) < 2 ^ E := zpow_pos (by norm_num) _
  have hz' : (0 : ℚ) < 2 ^ (E - m : ℤ) := zpow_pos (by norm_num) _
  have hr := rhd_err (mant_range (m := m) h1 h2).1
  conv_lhs => enter [1, 2]; rw [← sgn_mul_abs q]
  rw [mul_assoc, ← mul_sub, abs_mul, sgn_abs, one_mul]
  have e1 : |q| = (2 ^ m + (|q| / 2 ^ E - 1) * 2 ^ m) * 2 ^ (E - m : ℤ) := by
    rw [zpow_sub₀ (by norm_num), zpow_natCast]
    field_simp
    ring
  conv_lhs => enter [1, 2]; rw [e1]
  rw [← sub_mul, add_sub_add_left_eq_sub, abs_mul, abs_of_pos hz']
  have e2 : (2 : ℚ) ^ (E - m - 1 : ℤ) = 1 / 2 * 2 ^ (E - m : ℤ) := by
    rw [zpow_sub₀ (by norm_num), zpow_one]; ring
  rw [e2]
  exact mul_le_mul_of_nonneg_right hr hz'.le

/-- when the mantissa rounds up to a power of two the carry is or-ed into the exponent field -/
theorem to_carry {q : ℚ} (h0 : q ≠ 0) (hn : (ofNat q.num.natAbs).length ≤ 2 ^ 58) (hd : (ofNat q.den).length ≤ 2 ^ 26)
    {E : Int} (h1 : 2 ^ E ≤ |q|) (h2 : |q| < 2 ^ (E + 1)) (hE : 1 - (floatBias e : Int) ≤ E) (hE' : E ≤ floatBias e)
    (hR : rhd ((|q| / 2 ^ E - 1) * 2 ^ m) = 2 ^ m) :
    ∃ b, b < 2 ^ (m + e + 1) ∧ to_ieee754 f (ofRat q) = pure (.ok b) ∧
      (E % 2 ≠ 0 → E < floatBias e → floatVal m e b = .finite ((if decide (q < 0) = true then -1 else 1) * 2 ^ (E + 1))) ∧
      (E = floatBias e → floatVal m e b = .inf (decide (q < 0))) ∧
      (E % 2 = 0 → floatVal m e b = .finite ((if decide (q < 0) = true then -1 else 1) * 2 ^ E)) := by
  obtain ⟨hb1, hb2, hb3⟩ := h.bias_le
  have he := h.he
  have hodd : floatBias e % 2 = 1 := by
    have : 2 ^ e = 2 * (2 * 2 ^ (e - 2)) := by
      rw [← pow_succ', ← pow_succ']
      congr 1
      omega
    omega
  have ha := (alog_range h0 h1 h2).2
  obtain ⟨k, hk⟩ : ∃ k : Nat, E + floatBias e = k := ⟨(E + floatBias e).toNat, by omega⟩
  refine ⟨_, ?_, by rw [to_encode h h0 hn hd h1 h2 (by omega), encode_normal h _ _ hE (by omega) hR.le], ?_⟩
  all_goals rw [hR, or_carry, hk, Int.toNat_natCast]
  · have e1 : (k + (k + 1) % 2) * 2 ^ m < 2 ^ e * 2 ^ m := Nat.mul_lt_mul_of_pos_right (by omega) (by positivity)
    rw [← pow_add, add_comm e] at e1
    have e2 : 2 ^ (m + e + 1) = 2 * 2 ^ (m + e) := pow_succ' _ _
    split_ifs <;> omega
  · have key := floatVal_fields (m := m) (e := e) (s := decide (q < 0)) (F := k + (k + 1) % 2) (R := 0) (by omega) (by positivity)
    rw [add_zero] at key
    rw [key, Nat.cast_zero, add_zero]
    have e3 : ∀ z : Int, (2 : ℚ) ^ m * 2 ^ (z - m : ℤ) = 2 ^ z := by
      intro z
      rw [← zpow_natCast, ← zpow_add₀ (by norm_num)]
      congr 1
      ring
    refine ⟨fun g1 g2 => ?_, fun g1 => ?_, fun g1 => ?_⟩
    · rw [if_neg (by omega), if_neg (by omega), mul_assoc, e3]
      congr 3
      push_cast
      omega
    · rw [if_pos (by omega), if_pos rfl]
    · rw [if_neg (by omega), if_neg (by omega), mul_assoc, e3]
      congr 3
      push_cast
      omega

/-- the binade above the finite numbers is encoded, as infinity or as a NaN -/
theorem to_above {q : ℚ} (h0 : q ≠ 0) (hn : (ofNat q.num.natAbs).length ≤ 2 ^ 58) (hd : (ofNat q.den).length ≤ 2 ^ 26)
    (h1 : 2 ^ (floatBias e + 1) ≤ |q|) (h2 : |q| < 2 ^ (floatBias e + 2)) (ha : alog q ≤ floatBias e + 1) :
    ∃ b, b < 2 ^ (m + e + 1) ∧ to_ieee754 f (ofRat q) = pure (.ok b) ∧
      (floatVal m e b = .inf (decide (q < 0)) ∨ floatVal m e b = .nan) := by
  obtain ⟨hb1, hb2, hb3⟩ := h.bias_le
  have h1' : (2 : ℚ) ^ ((floatBias e : Int) + 1) ≤ |q| := by
    rw [show (floatBias e : Int) + 1 = ((floatBias e + 1 : Nat) : Int) by push_cast; ring, zpow_natCast]; exact h1
  have h2' : |q| < (2 : ℚ) ^ ((floatBias e : Int) + 1 + 1) := by
    rw [show (floatBias e : Int) + 1 + 1 = ((floatBias e + 2 : Nat) : Int) by push_cast; ring, zpow_natCast]; exact h2
  obtain ⟨r1, r2⟩ := mant_range (m := m) h1' h2'
  have hR := rhd_le r2 (by positivity)
  obtain ⟨R, hRe⟩ : ∃ R, R = rhd ((|q| / 2 ^ ((floatBias e : Int) + 1) - 1) * 2 ^ m) := ⟨_, rfl⟩
  have ek : ((floatBias e : Int) + 1 + floatBias e).toNat = 2 ^ e - 1 := by omega
  have hodd : (2 ^ e - 1 + 1) % 2 = 0 := by
    have : 2 ^ e = 2 * 2 ^ (e - 1) := by
      have := h.he
      rw [← pow_succ']
      congr 1
      omega
    omega
  rw [← hRe] at hR
  have e2 : 2 ^ (m + e + 1) = 2 * 2 ^ (m + e) := pow_succ' _ _
  refine ⟨_, ?_, by rw [to_encode h h0 hn hd h1' h2' ha, encode_normal h _ _ (by omega) (by omega) (hRe ▸ hR)], ?_⟩
  all_goals rw [← hRe, ek]
  · have : (2 ^ e - 1) * 2 ^ m ||| R < 2 ^ (m + e) := by
      refine Nat.or_lt_two_pow ?_ (lt_of_le_of_lt hR (Nat.pow_lt_pow_right (by omega) (by have := h.he; omega)))
      rw [pow_add, mul_comm (2 ^ m)]
      exact Nat.mul_lt_mul_of_pos_right (by omega) (by positivity)
    split_ifs <;> omega
  · rcases Nat.lt_or_ge R (2 ^ m) with hlt | hge
    · rw [or_frac hlt, ← add_assoc, floatVal_fields (by omega) hlt, if_pos rfl]
      by_cases hz : R = 0
      · rw [if_pos hz]; exact Or.inl rfl
      · rw [if_neg hz]; exact Or.inr rfl
    · obtain rfl : R = 2 ^ m := by omega
      have key := floatVal_fields (m := m) (e := e) (s := decide (q < 0)) (F := 2 ^ e - 1) (R := 0) (by omega) (by positivity)
      rw [add_zero] at key
      rw [or_carry, hodd, add_zero, key, if_pos rfl, if_pos rfl]
      exact Or.inl rfl

/-- numbers below the normal range -/
theorem to_sub {q : ℚ} (h0 : q ≠ 0) (hn : (ofNat q.num.natAbs).length ≤ 2 ^ 58) (hd : (ofNat q.den).length ≤ 2 ^ 26)
    {E : Int} (h1 : 2 ^ E ≤ |q|) (h2 : |q| < 2 ^ (E + 1)) (hE : E ≤ -(floatBias e : Int)) :
    ∃ r : Nat, r ≤ 2 ^ m ∧
      |(r : ℚ) - (2 ^ m + rhd ((|q| / 2 ^ E - 1) * 2 ^ m)) * 2 ^ (E + floatBias e - 1 : ℤ)| ≤ 1 / 2 ∧
      to_ieee754 f (ofRat q) = pure (.ok (if r = 0 then 0 else (if decide (q < 0) = true then 2 ^ (m + e) else 0) + r)) := by
  obtain ⟨hb1, hb2, hb3⟩ := h.bias_le
  have ha := (alog_range h0 h1 h2).2
  obtain ⟨r, r1, r2, r3⟩ := encode_sub h (ofRat q) (decide (q < 0)) hE
    (rhd_le (mant_range (m := m) h1 h2).2 (by positivity))
  exact ⟨r, r1, r2, by rw [to_encode h h0 hn hd h1 h2 (by omega), r3]⟩

theorem to_sub_err {q : ℚ} (h0 : q ≠ 0) (hn : (ofNat q.num.natAbs).length ≤ 2 ^ 58) (hd : (ofNat q.den).length ≤ 2 ^ 26)
    {E : Int} (h1 : 2 ^ E ≤ |q|) (h2 : |q| < 2 ^ (E + 1)) (hE : E ≤ -(floatBias e : Int)) :
    ∃ b v, b < 2 ^ (m + e + 1) ∧ to_ieee754 f (ofRat q) = pure (.ok b) ∧ floatVal m e b = .finite v ∧
      |v - q| ≤ 3 / 4 * 2 ^ (1 - floatBias e - m : ℤ) := by
  have he := h.he
  obtain ⟨r, r1, r2, r3⟩ := to_sub h h0 hn hd h1 h2 hE
  have hz : (0 : ℚ) < 2 ^ (1 - floatBias e - m : ℤ) := zpow_pos (by norm_num) _
  have e2 : 2 ^ (m + e + 1) = 2 * 2 ^ (m + e) := pow_succ' _ _
  have hlt : 2 ^ m < 2 ^ (m + e) := Nat.pow_lt_pow_right (by omega) (by omega)
  refine ⟨_, (if decide (q < 0) = true then -1 else 1) * r * 2 ^ (1 - floatBias e - m : ℤ), ?_, r3, ?_, ?_⟩
  · split_ifs <;> omega
  · by_cases hr : r = 0
    · have := floatVal_sub (m := m) (e := e) (s := false) (r := 0) (by omega) (by omega)
      simp only [Bool.false_eq_true, if_false, zero_add, Nat.cast_zero, mul_zero, zero_mul] at this
      rw [if_pos hr, this, hr, Nat.cast_zero, mul_zero, zero_mul]
    · rw [if_neg hr, floatVal_sub (by omega) r1]
  · have hr := rhd_err (mant_range (m := m) h1 h2).1
    conv_lhs => enter [1, 2]; rw [← sgn_mul_abs q]
    rw [mul_assoc, ← mul_sub, abs_mul, sgn_abs, one_mul]
    have e1 : |q| = (2 ^ m + (|q| / 2 ^ E - 1) * 2 ^ m) * 2 ^ (E + floatBias e - 1 : ℤ) * 2 ^ (1 - floatBias e - m : ℤ) := by
      rw [mul_assoc, ← zpow_add₀ (by norm_num), show E + (floatBias e : Int) - 1 + (1 - floatBias e - m) = E - m by ring,
        zpow_sub₀ (by norm_num), zpow_natCast]
      have : (0 : ℚ) < 2 ^ E := zpow_pos (by norm_num) _
      field_simp
      ring
    conv_lhs => enter [1, 2]; rw [e1]
    rw [← sub_mul, abs_mul, abs_of_pos hz]
    refine mul_le_mul_of_nonneg_right ?_ hz.le
    have hw : (0 : ℚ) < 2 ^ (E + floatBias e - 1 : ℤ) := zpow_pos (by norm_num) _
    have hw' : (2 : ℚ) ^ (E + floatBias e - 1 : ℤ) ≤ 1 / 2 := by
      have := zpow_le_zpow_right₀ (by norm_num : (1 : ℚ) ≤ 2) (show E + floatBias e - 1 ≤ -1 by omega)
      rw [zpow_neg_one] at this
      norm_num at this ⊢
      exact this
    rw [abs_le] at hr r2 ⊢
    generalize (2 : ℚ) ^ (E + floatBias e - 1 : ℤ) = w at *
    generalize (rhd ((|q| / 2 ^ E - 1) * 2 ^ m) : ℚ) = R at *
    generalize (|q| / 2 ^ E - 1) * 2 ^ m = t at *
    constructor <;> nlinarith

/-- numbers beyond the binade above the finite numbers are rejected -/
theorem to_big {q : ℚ} (h0 : q ≠ 0) (hn : (ofNat q.num.natAbs).length ≤ 2 ^ 27) (hd : (ofNat q.den).length ≤ 2 ^ 26)
    (ha : floatBias e + 1 < alog q) : to_ieee754 f (ofRat q) = pure (.error .notInRange) := by
  obtain ⟨k, -⟩ := to_c h h0 (by rw [BigI.mag_ofInt]; omega) (by rwa [BigI.mag_ofInt, Int.natAbs_natCast])
  obtain ⟨c, X, -, -, -, -, -, hs⟩ := sci_c h0 hn (by omega)
  rw [k (by exact_mod_cast ha), hs 5]
  rfl

/-! ### round trip -/

theorem to_from_normal {s : Bool} {F R : Nat} (hF : F < 2 ^ e - 1) (hF0 : F ≠ 0) (hR : R < 2 ^ m) {q : ℚ}
    (hq : q = (if s = true then -1 else 1) * (2 ^ m + R) * 2 ^ (F - floatBias e - m : ℤ))
    (hn : (ofNat q.num.natAbs).length ≤ 2 ^ 58) (hd : (ofNat q.den).length ≤ 2 ^ 26) :
    to_ieee754 f (ofRat q) = pure (.ok ((if s = true then 2 ^ (m + e) else 0) + F * 2 ^ m + R)) := by
  obtain ⟨hb1, hb2, hb3⟩ := h.bias_le
  have hz : (0 : ℚ) < 2 ^ (F - floatBias e - m : ℤ) := zpow_pos (by norm_num) _
  have hp : (0 : ℚ) < (2 ^ m + R) * 2 ^ (F - floatBias e - m : ℤ) := by positivity
  have habs : |q| = (2 ^ m + R) * 2 ^ (F - floatBias e - m : ℤ) := by
    rw [hq, mul_assoc, abs_mul, sgn_abs, one_mul, abs_of_pos hp]
  have h0 : q ≠ 0 := by rw [← abs_pos, habs]; exact hp
  have hs : decide (q < 0) = s := by
    rw [hq, mul_assoc]
    cases s
    · simp only [Bool.false_eq_true, if_false, one_mul, decide_eq_false_iff_not, not_lt]; exact hp.le
    · simp only [if_true, decide_eq_true_eq]; linarith
  have hEz : (2 : ℚ) ^ (F - floatBias e : ℤ) = 2 ^ m * 2 ^ (F - floatBias e - m : ℤ) := by
    rw [← zpow_natCast, ← zpow_add₀ (by norm_num)]
    congr 1
    ring
  have h1 : (2 : ℚ) ^ (F - floatBias e : ℤ) ≤ |q| := by
    rw [hEz, habs]
    exact mul_le_mul_of_nonneg_right (by linarith [Nat.cast_nonneg (α := ℚ) R]) hz.le
  have hRq : (R : ℚ) < 2 ^ m := by exact_mod_cast hR
  have h2 : |q| < (2 : ℚ) ^ ((F - floatBias e : ℤ) + 1) := by
    rw [zpow_add₀ (by norm_num), zpow_one, hEz, habs]
    nlinarith
  have hm : |q| / 2 ^ (F - floatBias e : ℤ) = (2 ^ m + R) / 2 ^ m := by
    rw [habs, hEz]
    field_simp
  have hr : rhd ((|q| / 2 ^ (F - floatBias e : ℤ) - 1) * 2 ^ m) = R := by
    rw [hm, show ((2 : ℚ) ^ m + R) / 2 ^ m - 1 = R / 2 ^ m by field_simp; ring, div_mul_cancel₀ _ (by positivity)]
    exact rhd_nat R
  have key := (to_normal h h0 hn hd h1 h2 (by omega) (by omega) (by rw [hr]; exact hR)).1
  rw [hr, hs, show ((F : Int) - floatBias e + floatBias e).toNat = F by omega] at key
  exact key

theorem to_from_sub {s : Bool} {R : Nat} (hR0 : R ≠ 0) (hR : R < 2 ^ m) {q : ℚ}
    (hq : q = (if s = true then -1 else 1) * R * 2 ^ (1 - floatBias e - m : ℤ))
    (hn : (ofNat q.num.natAbs).length ≤ 2 ^ 58) (hd : (ofNat q.den).length ≤ 2 ^ 26) :
    to_ieee754 f (ofRat q) = pure (.ok ((if s = true then 2 ^ (m + e) else 0) + R)) := by
  obtain ⟨hb1, hb2, hb3⟩ := h.bias_le
  obtain ⟨l, hl⟩ : ∃ l, l = Nat.log2 R := ⟨_, rfl⟩
  have l1 : 2 ^ l ≤ R := by rw [hl]; exact Nat.log2_self_le hR0
  have l2 : R < 2 ^ (l + 1) := by rw [hl]; exact Nat.lt_log2_self
  have lm : l < m := by
    have : 2 ^ l < 2 ^ m := lt_of_le_of_lt l1 hR
    exact (Nat.pow_lt_pow_iff_right (by norm_num)).1 this
  have l1' : (2 : ℚ) ^ l ≤ R := by exact_mod_cast l1
  have l2' : (R : ℚ) < 2 ^ (l + 1) := by exact_mod_cast l2
  have hR0' : (0 : ℚ) < R := by exact_mod_cast Nat.pos_of_ne_zero hR0
  have hz : (0 : ℚ) < 2 ^ (1 - floatBias e - m : ℤ) := zpow_pos (by norm_num) _
  have hp : (0 : ℚ) < R * 2 ^ (1 - floatBias e - m : ℤ) := by positivity
  have habs : |q| = R * 2 ^ (1 - floatBias e - m : ℤ) := by
    rw [hq, mul_assoc, abs_mul, sgn_abs, one_mul, abs_of_pos hp]
  have h0 : q ≠ 0 := by rw [← abs_pos, habs]; exact hp
  have hs : decide (q < 0) = s := by
    rw [hq, mul_assoc]
    cases s
    · simp only [Bool.false_eq_true, if_false, one_mul, decide_eq_false_iff_not, not_lt]; exact hp.le
    · simp only [if_true, decide_eq_true_eq]; linarith
  have hEz : (2 : ℚ) ^ (l + (1 - floatBias e - m) : ℤ) = 2 ^ l * 2 ^ (1 - floatBias e - m : ℤ) := by
    rw [zpow_add₀ (by norm_num), zpow_natCast]
  have h1 : (2 : ℚ) ^ (l + (1 - floatBias e - m) : ℤ) ≤ |q| := by
    rw [hEz, habs]
    exact mul_le_mul_of_nonneg_right l1' hz.le
  have h2 : |q| < (2 : ℚ) ^ ((l + (1 - floatBias e - m) : ℤ) + 1) := by
    rw [zpow_add₀ (by norm_num), zpow_one, hEz, habs]
    rw [pow_succ] at l2'
    nlinarith
  have hm : |q| / 2 ^ (l + (1 - floatBias e - m) : ℤ) = R / 2 ^ l := by
    rw [habs, hEz]
    field_simp
  have hpm : (2 : ℚ) ^ m = 2 ^ l * 2 ^ (m - l) := by rw [← pow_add]; congr 1; omega
  have hr : rhd ((|q| / 2 ^ (l + (1 - floatBias e - m) : ℤ) - 1) * 2 ^ m) = (R - 2 ^ l) * 2 ^ (m - l) := by
    have : (|q| / 2 ^ (l + (1 - floatBias e - m) : ℤ) - 1) * 2 ^ m = (((R - 2 ^ l) * 2 ^ (m - l) : Nat) : ℚ) := by
      rw [hm, hpm]
      push_cast [Nat.cast_sub l1]
      field_simp
    rw [this]
    exact rhd_nat _
  obtain ⟨r, r1, r2, r3⟩ := to_sub h h0 hn hd h1 h2 (by omega)
  rw [hr] at r2
  have e1 : ((2 : ℚ) ^ m + (((R - 2 ^ l) * 2 ^ (m - l) : Nat) : ℚ)) * 2 ^ ((l + (1 - floatBias e - m) : ℤ) + floatBias e - 1) = R := by
    have : (l + (1 - floatBias e - m) : ℤ) + floatBias e - 1 = -((m - l : Nat) : Int) := by omega
    rw [this, zpow_neg, zpow_natCast]
    push_cast [Nat.cast_sub l1]
    rw [hpm]
    field_simp
    ring
  rw [e1] at r2
  have hrR : r = R := by
    rw [abs_le] at r2
    have a1 : (r : ℚ) < R + 1 := by linarith [r2.2]
    have a2 : (R : ℚ) < r + 1 := by linarith [r2.1]
    have a1' : r < R + 1 := by exact_mod_cast a1
    have a2' : R < r + 1 := by exact_mod_cast a2
    omega
  rw [r3, hrR, if_neg hR0, hs]

end

end Ratio
end Hmath
