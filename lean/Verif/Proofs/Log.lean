import Mathlib.Tactic.Linarith
import Mathlib.Tactic.Positivity
import Mathlib.Algebra.Order.Ring.Rat
import Mathlib.Algebra.Order.Field.Basic
import Verif.Proofs.Canon
import Verif.Proofs.BigInt
import Verif.Model.Log

/-!
# `log2_accurate`
-/

namespace Hmath
namespace UBig

/-- the last lines of `log2_accurate` -/
def logTop (a : UBig) : M Nat := do
  let l ← uSub a.length 1
  let t ← u64Mul l 32
  let x ← idx a l
  u64Add t (log2_u32 x)

theorem logTop_eq {a : UBig} (ha : Valid a) (hlen : a.length ≤ 2 ^ 58) :
    logTop a = pure (Nat.log2 (val a)) := by
  obtain ⟨p, x, rfl⟩ : ∃ p x, a = p ++ [x] :=
    ⟨a.dropLast, a.getLast ha.ne, (List.dropLast_append_getLast ha.ne).symm⟩
  have hl := ha.limbs'
  rw [limbs_append] at hl
  simp only [limbs_cons] at hl
  have hlog : log2_u32 x < 32 ∧ (x ≠ 0 → 2 ^ log2_u32 x ≤ x ∧ x < 2 ^ (log2_u32 x + 1)) := by
    rw [log2_u32]
    by_cases hx : x = 0
    · rw [if_pos hx]; exact ⟨by omega, fun h => absurd hx h⟩
    · rw [if_neg hx]
      exact ⟨(Nat.log2_lt hx).mpr (by omega), fun _ => ⟨Nat.log2_self_le hx, Nat.lt_log2_self⟩⟩
  simp only [List.length_append, List.length_cons, List.length_nil] at hlen
  simp only [logTop, List.length_append, List.length_cons, List.length_nil]
  rw [uSub_eq (by omega), pure_bind, Nat.add_sub_cancel, u64Mul, uMul_eq (by omega), pure_bind,
    idx_some (x := x) (by simp), pure_bind, u64Add, uAdd_eq (by omega)]
  congr 1
  have hv : val (p ++ [x]) = val p + B32 ^ p.length * x := by rw [val_append]; simp
  have hp := val_lt hl.1
  by_cases hx : x = 0
  · subst hx
    have hpn : p = [] := by
      by_contra hp
      have := List.length_pos_iff.mpr hp
      exact ha.top (by simp; omega) (by simp)
    subst hpn; rfl
  · obtain ⟨h1, h2⟩ := hlog.2 hx
    have hb : B32 ^ p.length = 2 ^ (p.length * 32) := by
      rw [Nat.mul_comm, pow_mul]; norm_num
    symm
    rw [Nat.log2_eq_iff (by rw [hv]; have := Nat.mul_pos (Nat.pow_pos (n := p.length) (show 0 < B32 by omega)) (Nat.pos_of_ne_zero hx); omega), hv]
    constructor
    · rw [pow_add, ← hb]
      exact (Nat.mul_le_mul_left _ h1).trans (Nat.le_add_left _ _)
    · rw [Nat.add_assoc, pow_add, ← hb]
      calc val p + B32 ^ p.length * x < B32 ^ p.length + B32 ^ p.length * x := by omega
        _ = B32 ^ p.length * (x + 1) := by ring
        _ ≤ _ := Nat.mul_le_mul_left _ h2

/-- `2^res · x` is `N` up to a relative error of `δ`, never above. -/
def Approx (N res x : Nat) (δ : ℚ) : Prop :=
  2 ^ res * x ≤ N ∧ (N : ℚ) ≤ 2 ^ res * x * (1 + δ)

theorem B32_pow (s : Nat) : B32 ^ s = 2 ^ (s * 32) := by
  rw [Nat.mul_comm, pow_mul]; norm_num

/-- cutting to `t` limbs -/
theorem cut_approx {N res y t : Nat} {δ : ℚ} (hδ : 0 ≤ δ) (h : Approx N res y δ)
    (hlen : t < (ofNat y).length) (ht : 0 < t) :
    let s := (ofNat y).length - t
    0 < y / B32 ^ s ∧ y / B32 ^ s < B32 ^ t ∧
      Approx N (res + s * 32) (y / B32 ^ s) ((1 + δ) * (1 + 1 / 2 ^ ((t - 1) * 32)) - 1) := by
  intro s
  have hy0 : 0 < y := by
    rcases Nat.eq_zero_or_pos y with h0 | h0
    · rw [h0, ofNat_zero] at hlen; simp only [List.length_cons, List.length_nil] at hlen; omega
    · exact h0
  have hs : (ofNat y).length = s + t := by omega
  have h1 := pow_length_le hy0
  have h2 := lt_pow_length y
  rw [hs] at h1 h2
  have e1 : s + t - 1 = s + (t - 1) := by omega
  rw [e1, pow_add] at h1
  rw [pow_add] at h2
  have hBpos : 0 < B32 ^ s := Nat.pow_pos (by norm_num)
  have hlo : B32 ^ (t - 1) ≤ y / B32 ^ s := by
    rw [Nat.le_div_iff_mul_le hBpos, Nat.mul_comm]; exact h1
  have hhi : y / B32 ^ s < B32 ^ t := by
    rw [Nat.div_lt_iff_lt_mul hBpos, Nat.mul_comm]; exact h2
  have hq : B32 ^ s * (y / B32 ^ s) ≤ y := Nat.mul_div_le _ _
  have hq2 : y < B32 ^ s * (y / B32 ^ s) + B32 ^ s := by
    have := Nat.lt_div_mul_add (a := y) hBpos
    rw [Nat.mul_comm] at this; exact this
  refine ⟨lt_of_lt_of_le (Nat.pow_pos (by norm_num)) hlo, hhi, ?_, ?_⟩
  · calc 2 ^ (res + s * 32) * (y / B32 ^ s) = 2 ^ res * (B32 ^ s * (y / B32 ^ s)) := by
          rw [pow_add, B32_pow]; ring
      _ ≤ 2 ^ res * y := Nat.mul_le_mul_left _ hq
      _ ≤ N := h.1
  · set q := y / B32 ^ s with hqdef
    rw [B32_pow] at hlo hq2
    have hqQ : ((2 : ℚ) ^ ((t - 1) * 32)) ≤ q := by exact_mod_cast hlo
    have hy : (y : ℚ) ≤ 2 ^ (s * 32) * q + 2 ^ (s * 32) := by
      exact_mod_cast hq2.le
    have hpos : (0 : ℚ) < 2 ^ ((t - 1) * 32) := by positivity
    have h1q : (1 : ℚ) ≤ q * (1 / 2 ^ ((t - 1) * 32)) := by
      rw [mul_one_div, le_div_iff₀ hpos, one_mul]; exact hqQ
    generalize (1 : ℚ) / 2 ^ ((t - 1) * 32) = u at *
    have hs0 : (0 : ℚ) ≤ 2 ^ (s * 32) := by positivity
    have hy2 : (y : ℚ) ≤ 2 ^ (s * 32) * (q * (1 + u)) := by
      have h3 := mul_le_mul_of_nonneg_left h1q hs0
      have h4 : (2 : ℚ) ^ (s * 32) * (q * (1 + u)) = 2 ^ (s * 32) * q + 2 ^ (s * 32) * (q * u) := by
        ring
      rw [h4]
      linarith
    calc (N : ℚ) ≤ 2 ^ res * y * (1 + δ) := h.2
      _ ≤ 2 ^ res * (2 ^ (s * 32) * (q * (1 + u))) * (1 + δ) := by
          apply mul_le_mul_of_nonneg_right _ (by linarith)
          exact mul_le_mul_of_nonneg_left hy2 (by positivity)
      _ = 2 ^ (res + s * 32) * q * (1 + ((1 + δ) * (1 + u) - 1)) := by
          rw [pow_add]; ring

theorem approx_mono {N res x : Nat} {δ ε : ℚ} (h : Approx N res x δ) (hle : δ ≤ ε) :
    Approx N res x ε :=
  ⟨h.1, h.2.trans (mul_le_mul_of_nonneg_left (by linarith) (by positivity))⟩

theorem approx_pow4 {N res x : Nat} {δ : ℚ} (h : Approx N res x δ) :
    Approx (N ^ 4) (res * 4) (x * x * (x * x)) ((1 + δ) ^ 4 - 1) := by
  constructor
  · calc 2 ^ (res * 4) * (x * x * (x * x)) = (2 ^ res * x) ^ 4 := by rw [pow_mul]; ring
      _ ≤ N ^ 4 := Nat.pow_le_pow_left h.1 4
  · push_cast
    calc (N : ℚ) ^ 4 ≤ (2 ^ res * x * (1 + δ)) ^ 4 := by
          apply pow_le_pow_left₀ (by positivity) h.2
      _ = _ := by rw [pow_mul]; ring

/-- an approximation from below does not overflow -/
theorem res_lt {N res x m : Nat} {δ : ℚ} (h : Approx N res x δ) (hx : 0 < x) (hN : N < 2 ^ m) :
    res < m := by
  have h1 : 2 ^ res < 2 ^ m := by
    calc 2 ^ res = 2 ^ res * 1 := by ring
      _ ≤ 2 ^ res * x := Nat.mul_le_mul_left _ hx
      _ ≤ N := h.1
      _ < 2 ^ m := hN
  exact (Nat.pow_lt_pow_iff_right (by norm_num)).1 h1

/-- error of round `i` -/
def err (i : Nat) : ℚ := 8 ^ i / 2 ^ 157

theorem err_pos (i : Nat) : 0 < err i := by unfold err; positivity

theorem err_step (i : Nat) (hi : i < 16) :
    (1 + ((1 + err i) ^ 4 - 1)) * (1 + 1 / 2 ^ ((6 - 1) * 32)) - 1 ≤ err (i + 1) := by
  have h1 : err (i + 1) = 8 * err i := by unfold err; rw [pow_succ]; ring
  have h2 : (1 : ℚ) / 2 ^ 157 ≤ err i := by
    unfold err
    gcongr
    exact one_le_pow₀ (by norm_num)
  have h3 : err i ≤ 1 / 2 ^ 100 := by
    unfold err
    rw [div_le_div_iff₀ (by positivity) (by positivity)]
    have : (8 : ℚ) ^ i ≤ 8 ^ 15 := pow_le_pow_right₀ (by norm_num) (by omega)
    calc (8 : ℚ) ^ i * 2 ^ 100 ≤ 8 ^ 15 * 2 ^ 100 := by gcongr
      _ ≤ _ := by norm_num
  have h0 := err_pos i
  rw [h1]
  generalize err i = d at *
  have h4 : (1 : ℚ) / 2 ^ ((6 - 1) * 32) = 1 / 2 ^ 157 * (1 / 8) := by norm_num
  rw [h4]
  have h5 : (1 : ℚ) / 2 ^ 157 * (1 / 8) ≤ d * (1 / 8) := by linarith
  have hd1 : d ≤ 1 / 100 := h3.trans (by norm_num)
  have hp : (1 + d) ^ 4 ≤ 1 + 5 * d := by nlinarith [sq_nonneg d, mul_pos h0 h0, mul_pos h0 (mul_pos h0 h0)]
  have hp0 : 0 ≤ (1 + d) ^ 4 := by positivity
  calc (1 + ((1 + d) ^ 4 - 1)) * (1 + 1 / 2 ^ 157 * (1 / 8)) - 1
      = (1 + d) ^ 4 * (1 + 1 / 2 ^ 157 * (1 / 8)) - 1 := by ring
    _ ≤ (1 + 5 * d) * (1 + d * (1 / 8)) - 1 := by
        have := mul_le_mul hp (add_le_add_right h5 1) (by positivity) (by linarith)
        linarith
    _ ≤ 8 * d := by nlinarith

theorem logCut_eq {N res y : Nat} (i : Nat) (hi : i < 16)
    (h : Approx N res y ((1 + err i) ^ 4 - 1)) (hy : 0 < y) {T : Nat} (hT : T ≤ 2 ^ 64) (hN : N < 2 ^ T) :
    ∃ res' x, logCut (ofNat y) res = pure (ofNat x, res') ∧ 0 < x ∧ x < B32 ^ 6 ∧
      Approx N res' x (err (i + 1)) := by
  unfold logCut
  have hδ : (0 : ℚ) ≤ (1 + err i) ^ 4 - 1 := by
    have := one_le_pow₀ (n := 4) (show (1 : ℚ) ≤ 1 + err i by have := err_pos i; linarith)
    linarith
  by_cases hl : (ofNat y).length > 6
  · obtain ⟨h1, h2, h3⟩ := cut_approx hδ h hl (by decide)
    set s := (ofNat y).length - 6 with hs
    have hr := res_lt h3 h1 hN
    have h3' := approx_mono h3 (err_step i hi)
    rw [if_pos hl, uSub_eq (by omega)]
    simp only [pure_bind]
    rw [← hs, u64Mul, uMul_eq (by omega)]
    simp only [pure_bind]
    rw [u64Add, uAdd_eq (by omega)]
    simp only [pure_bind]
    rw [shift_right_mut_c]
    exact ⟨_, _, rfl, h1, h2, h3'⟩
  · rw [if_neg hl]
    have hlt : y < B32 ^ 6 := (length_ofNat_le_iff (by decide)).1 (by omega)
    refine ⟨_, _, rfl, hy, hlt, approx_mono h ?_⟩
    refine le_trans ?_ (err_step i hi)
    have : (0 : ℚ) ≤ 1 / 2 ^ ((6 - 1) * 32) := by positivity
    nlinarith

theorem logLoop_eq {T K : Nat} (hT : T ≤ 2 ^ 64) (hK : K = 16) (k : Nat) :
    ∀ (i n x res : Nat), i + k = K → 0 < x →
    Approx (n ^ 4 ^ i) res x (err i) → n ^ 4 ^ K < 2 ^ T →
    ∃ x' res', logLoop k (ofNat x) res = pure (ofNat x', res') ∧ 0 < x' ∧
      (0 < k → x' < B32 ^ 6) ∧ Approx (n ^ 4 ^ K) res' x' (err K) := by
  induction k with
  | zero =>
    intro i n x res hi hx h _
    have : i = K := by omega
    subst this
    exact ⟨x, res, rfl, hx, by omega, h⟩
  | succ k ih =>
    intro i n x res hi hx h hN
    have hn0 : 0 < n := by
      rcases Nat.eq_zero_or_pos n with h0 | h0
      · have h1 := h.1
        rw [h0, zero_pow (by positivity)] at h1
        have := Nat.mul_pos (Nat.pow_pos (n := res) (show 0 < 2 by norm_num)) hx
        omega
      · exact h0
    have hN' : ∀ j ≤ K, n ^ 4 ^ j < 2 ^ T := fun j hj =>
      lt_of_le_of_lt (Nat.pow_le_pow_right hn0 (Nat.pow_le_pow_right (by norm_num) hj)) hN
    have h4 := approx_pow4 h
    have e4 : (n ^ 4 ^ i) ^ 4 = n ^ 4 ^ (i + 1) := by rw [← pow_mul, ← pow_succ]
    rw [e4] at h4
    have hr : res * 4 < T :=
      res_lt h4 (Nat.mul_pos (Nat.mul_pos hx hx) (Nat.mul_pos hx hx)) (hN' (i + 1) (by omega))
    obtain ⟨res', x', h5, h6, h7, h8⟩ := logCut_eq i (by omega) h4
      (Nat.mul_pos (Nat.mul_pos hx hx) (Nat.mul_pos hx hx)) hT (hN' (i + 1) (by omega))
    obtain ⟨x'', res'', g1, g2, g3, g4⟩ := ih (i + 1) n x' res' (by omega) h6 h8 hN
    refine ⟨x'', res'', ?_, g2, fun _ => ?_, g4⟩
    · rw [logLoop, mul_c]
      simp only [pure_bind]
      rw [mul_c]
      simp only [pure_bind]
      rw [u64Mul, uMul_eq (by omega)]
      simp only [pure_bind]
      rw [h5]
      simp only [pure_bind]
      exact g1
    · rcases Nat.eq_zero_or_pos k with hk | hk
      · subst hk
        rw [logLoop] at g1
        have e : (ofNat x', res') = (ofNat x'', res'') := by
          have h : some (Except.ok (ε := Panic) (ofNat x', res')) = some (Except.ok (ofNat x'', res'')) := g1
          injection h with h
          injection h
        have e1 : ofNat x' = ofNat x'' := congrArg Prod.fst e
        have e2 := congrArg val e1
        rw [val_ofNat, val_ofNat] at e2
        omega
      · exact g3 hk

theorem logInit_eq (n : Nat) (hn : 0 < n) {T : Nat} (hT : T ≤ 2 ^ 64) (hN : n < 2 ^ T) :
    ∃ x res, logInit (ofNat n) = pure (ofNat x, res) ∧ 0 < x ∧ Approx n res x (err 0) := by
  unfold logInit
  have h0 : Approx n 0 n 0 := ⟨by simp, by simp⟩
  by_cases hl : (ofNat n).length > 8
  · obtain ⟨h1, h2, h3⟩ := cut_approx (le_refl 0) h0 hl (by decide)
    set s := (ofNat n).length - 8 with hs
    have hr := res_lt h3 h1 hN
    rw [if_pos hl, uSub_eq (by omega)]
    simp only [pure_bind]
    rw [← hs, u64Mul, uMul_eq (by omega)]
    simp only [pure_bind]
    rw [u64Add, uAdd_eq (by omega)]
    simp only [pure_bind]
    rw [shift_right_c]
    refine ⟨_, _, rfl, h1, approx_mono h3 ?_⟩
    unfold err
    norm_num
  · rw [if_neg hl]
    exact ⟨n, 0, rfl, hn, approx_mono h0 (err_pos 0).le⟩

theorem log2_accurate_aux {T E K : Nat} (n : Nat) (hn : 0 < n) (hT : T = 2 ^ 32) (hK : K = 16)
    (hE : E = 4 ^ K) (hN : n < 2 ^ T) :
    ∃ r, log2_accurate (ofNat n) = pure (ofNat r) ∧ r < 2 ^ 64 ∧ 2 ^ r ≤ n ^ E ∧
      (n : ℚ) ^ E < 2 ^ (r + 1) * (1 + 1 / 2 ^ 109) := by
  obtain ⟨x0, res0, a1, a2, a3⟩ := logInit_eq n hn (by omega) hN
  have hE0 : E ≠ 0 := by rw [hE]; positivity
  obtain ⟨T', hT'⟩ : ∃ T', T' = T * E := ⟨_, rfl⟩
  have hT64 : T' ≤ 2 ^ 64 := by rw [hT', hT, hE, hK]; norm_num
  have hNN : n ^ 4 ^ K < 2 ^ T' := by
    rw [hT', pow_mul, ← hE]
    exact Nat.pow_lt_pow_left hN hE0
  obtain ⟨x, res, b1, b2, b3, b4⟩ := logLoop_eq hT64 hK K 0 n x0 res0 (by omega) a2
    (by simpa using a3) hNN
  have hx := b3 (by omega)
  have hlenx : (ofNat x).length ≤ 2 ^ 58 :=
    le_trans ((length_ofNat_le_iff (by decide)).2 hx) (by norm_num)
  have ht := logTop_eq (valid_ofNat x) hlenx
  rw [val_ofNat] at ht
  have hl1 : 2 ^ Nat.log2 x ≤ x := Nat.log2_self_le (by omega)
  have hl2 : x < 2 ^ (Nat.log2 x + 1) := Nat.lt_log2_self
  rw [← hE] at b4 hNN
  have hlow : 2 ^ (res + Nat.log2 x) ≤ n ^ E := by
    rw [pow_add]
    exact le_trans (Nat.mul_le_mul_left _ hl1) b4.1
  have hr : res + Nat.log2 x < T' :=
    (Nat.pow_lt_pow_iff_right (by norm_num)).1 (lt_of_le_of_lt hlow hNN)
  refine ⟨res + Nat.log2 x, ?_, by omega, hlow, ?_⟩
  · have key : log2_accurate (ofNat n) = (do
        let p ← logInit (ofNat n)
        let p ← logLoop K p.1 p.2
        let t ← logTop p.1
        let r ← u64Add p.2 t
        pure (from_u64 r)) := by
      simp only [log2_accurate, logTop, bind_assoc, hK]
    rw [key, a1]
    simp only [pure_bind]
    rw [b1]
    simp only [pure_bind]
    rw [ht]
    simp only [pure_bind]
    rw [u64Add, uAdd_eq (by omega)]
    simp only [pure_bind]
    rw [from_u64_eq (by omega)]
  · have h1 := b4.2
    push_cast at h1
    have hxq : (x : ℚ) < 2 ^ (Nat.log2 x + 1) := by exact_mod_cast hl2
    have herr : err K = 1 / 2 ^ 109 := by rw [hK]; unfold err; norm_num
    rw [herr] at h1
    calc (n : ℚ) ^ E ≤ 2 ^ res * x * (1 + 1 / 2 ^ 109) := h1
      _ < 2 ^ res * 2 ^ (Nat.log2 x + 1) * (1 + 1 / 2 ^ 109) := by
          apply mul_lt_mul_of_pos_right _ (by positivity)
          exact mul_lt_mul_of_pos_left hxq (by positivity)
      _ = _ := by rw [← pow_add, ← add_assoc]

theorem log2_accurate_zero : log2_accurate [0] = pure [0] := by
  have h : ∀ k, logLoop k [0] 0 = pure ([0], 0) := by
    intro k
    induction k with
    | zero => rfl
    | succ k ih =>
      have e := mul_c 0 0
      rw [Nat.mul_zero, ofNat_zero] at e
      rw [logLoop, e]
      simp only [pure_bind]
      rw [e]
      simp only [pure_bind]
      exact ih
  rw [log2_accurate, show logInit [0] = pure ([0], 0) from rfl, pure_bind, h 16]
  rfl

end UBig
end Hmath
