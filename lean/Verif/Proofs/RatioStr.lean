import Verif.Model.RatioStr
import Verif.Proofs.Parse
import Verif.Proofs.LnSqrt
import Mathlib.RingTheory.Coprime.Lemmas

/-!
# Parsing of rational literals
-/

namespace Hmath
namespace Ratio

private theorem i2 : IsI32 2 := by unfold IsI32; omega
private theorem i5 : IsI32 5 := by unfold IsI32; omega
private theorem i10 : IsI32 10 := by unfold IsI32; omega

/-! ### cancelling powers of 2 and 5 -/

theorem rem_pow2_two (a : Int) : BigI.rem_pow2 (ofInt a) 2 = pure (ofInt (a.tmod 2)) := by
  have e := UBig.rem_pow2_eq (k := 1) (valid_ofNat a.natAbs) (by omega)
  rw [val_ofNat, pow_one] at e
  have hm : a.natAbs % 2 = (a.tmod 2).natAbs := by rw [Int.natAbs_tmod]; rfl
  have hs := Int.tmod_def a 2
  rw [BigI.rem_pow2, BigI.i32Abs_c i2 (by omega), pure_bind, BigI.mag_ofInt,
    show (2 : Int).natAbs = 2 from rfl, e, pure_bind]
  refine congrArg pure (BigI.from_ubi_c hm fun h => ?_)
  rw [BigI.neg_ofInt, UBig.is_zero_c, decide_eq_false (by omega : ¬ a.natAbs % 2 = 0), Bool.not_false, Bool.and_true]
  rw [decide_eq_true_iff]
  have := Int.mul_tdiv_add_tmod a 2
  rcases lt_trichotomy a 0 with h1 | h1 | h1
  · have h2 := Int.neg_tmod (a := -a) (b := 2)
    have h3 := Int.tmod_nonneg 2 (a := -a) (by omega)
    rw [neg_neg] at h2
    omega
  · subst h1; simp at h
  · have := Int.tmod_nonneg 2 (a := a) (by omega)
    omega

theorem cancel2_c (n : Nat) : ∀ e : Int, e.natAbs = n → e ≠ 0 → ∀ a : Int,
    ∃ (k : Nat) (a' e' : Int), a = 2 ^ k * a' ∧ e = 2 ^ k * e' ∧ ¬ (2 ∣ a' ∧ 2 ∣ e') ∧
      cancel2 (ofInt a) (ofInt e) = pure (ofInt a', ofInt e') := by
  induction n using Nat.strong_induction_on with
  | _ n ih =>
    intro e hn he a
    rw [cancel2, rem_pow2_two, pure_bind, BigI.is_zero_c]
    by_cases h1 : a.tmod 2 = 0
    · rw [decide_eq_true h1, if_pos rfl, rem_pow2_two, pure_bind, BigI.is_zero_c]
      by_cases h2 : e.tmod 2 = 0
      · rw [decide_eq_true h2, if_pos rfl, BigI.div_i32_mut_c i2 (by omega) (by omega), pure_bind,
          BigI.div_i32_mut_c i2 (by omega) (by omega), pure_bind]
        have g1 : a.tdiv 2 * 2 = a := Int.tdiv_mul_cancel (Int.dvd_of_tmod_eq_zero h1)
        have g2 : e.tdiv 2 * 2 = e := Int.tdiv_mul_cancel (Int.dvd_of_tmod_eq_zero h2)
        obtain ⟨k, a', e', r1, r2, r3, r4⟩ := ih (e.tdiv 2).natAbs (by omega) _ rfl (by omega) (a.tdiv 2)
        refine ⟨k + 1, a', e', ?_, ?_, r3, r4⟩
        · rw [← g1, r1]; ring
        · rw [← g2, r2]; ring
      · rw [decide_eq_false h2, if_neg (by decide)]
        exact ⟨0, a, e, by simp, by simp, fun h => h2 (Int.tmod_eq_zero_of_dvd h.2), rfl⟩
    · rw [decide_eq_false h1, if_neg (by decide)]
      exact ⟨0, a, e, by simp, by simp, fun h => h1 (Int.tmod_eq_zero_of_dvd h.1), rfl⟩

private theorem len_ok {a : Int} {L : Nat} (hL : 0 < L) (hL' : L ≤ B32) (h : a.natAbs < B32 ^ L) :
    (ofInt a).mag.length ≤ B32 := by
  rw [BigI.mag_ofInt]
  exact ((length_ofNat_le_iff hL).2 h).trans hL'

theorem cancel5_c {L : Nat} (hL : 0 < L) (hL' : L ≤ B32) (n : Nat) : ∀ e : Int, e.natAbs = n → e ≠ 0 →
    e.natAbs < B32 ^ L → ∀ a : Int, a.natAbs < B32 ^ L →
    ∃ (k : Nat) (a' e' : Int), a = 5 ^ k * a' ∧ e = 5 ^ k * e' ∧ ¬ (5 ∣ a' ∧ 5 ∣ e') ∧
      cancel5 (ofInt a) (ofInt e) = pure (ofInt a', ofInt e') := by
  have key : ∀ a : Int, a.natAbs < B32 ^ L → (ofInt a).mag.length ≤ B32 := fun a => len_ok hL hL'
  generalize B32 ^ L = N at *
  induction n using Nat.strong_induction_on with
  | _ n ih =>
    intro e hn he heN a haN
    rw [cancel5, BigI.rem_i32_c i5 (by omega) (by omega) (key _ haN), pure_bind, BigI.is_zero_c]
    by_cases h1 : a.tmod 5 = 0
    · rw [decide_eq_true h1, if_pos rfl, BigI.rem_i32_c i5 (by omega) (by omega) (key _ heN), pure_bind,
        BigI.is_zero_c]
      by_cases h2 : e.tmod 5 = 0
      · rw [decide_eq_true h2, if_pos rfl, BigI.div_i32_mut_c i5 (by omega) (by omega), pure_bind,
          BigI.div_i32_mut_c i5 (by omega) (by omega), pure_bind]
        have g1 : a.tdiv 5 * 5 = a := Int.tdiv_mul_cancel (Int.dvd_of_tmod_eq_zero h1)
        have g2 : e.tdiv 5 * 5 = e := Int.tdiv_mul_cancel (Int.dvd_of_tmod_eq_zero h2)
        obtain ⟨k, a', e', r1, r2, r3, r4⟩ := ih (e.tdiv 5).natAbs (by omega) _ rfl (by omega) (by omega)
          (a.tdiv 5) (by omega)
        refine ⟨k + 1, a', e', ?_, ?_, r3, r4⟩
        · rw [← g1, r1]; ring
        · rw [← g2, r2]; ring
      · rw [decide_eq_false h2, if_neg (by decide)]
        exact ⟨0, a, e, by simp, by simp, fun h => h2 (Int.tmod_eq_zero_of_dvd h.2), rfl⟩
    · rw [decide_eq_false h1, if_neg (by decide)]
      exact ⟨0, a, e, by simp, by simp, fun h => h1 (Int.tmod_eq_zero_of_dvd h.1), rfl⟩

/-- both loops: a common factor is removed and the rest is coprime -/
theorem cancel_c {L x : Nat} (hL : 0 < L) (hL' : L ≤ B32) {a : Int} (ha : a.natAbs < B32 ^ L)
    (hx : 10 ^ x < B32 ^ L) :
    ∃ (c a' e' : Int) (s : BigI × BigI), 0 < c ∧ 0 < e' ∧ a = c * a' ∧ (10 : Int) ^ x = c * e' ∧
      Int.gcd a' e' = 1 ∧ cancel2 (ofInt a) (ofInt (10 ^ x)) = pure s ∧
      cancel5 s.1 s.2 = pure (ofInt a', ofInt e') := by
  have h0 : (0 : Int) < 10 ^ x := by positivity
  obtain ⟨k, a1, e1, r1, r2, r3, r4⟩ := cancel2_c _ ((10 : Int) ^ x) rfl h0.ne' a
  have ek : e1.natAbs ≤ ((10 : Int) ^ x).natAbs := by
    rw [r2, Int.natAbs_mul]
    exact Nat.le_mul_of_pos_left _ (by positivity)
  have ak : a1.natAbs ≤ a.natAbs := by
    rw [r1, Int.natAbs_mul]
    exact Nat.le_mul_of_pos_left _ (by positivity)
  have e10 : ((10 : Int) ^ x).natAbs = 10 ^ x := by rw [Int.natAbs_pow]; rfl
  obtain ⟨m, a2, e2, s1, s2, s3, s4⟩ := cancel5_c hL hL' _ e1 rfl (by rintro rfl; simp at r2)
    (by omega) a1 (by omega)
  refine ⟨2 ^ k * 5 ^ m, a2, e2, _, by positivity, ?_, by rw [r1, s1]; ring, by rw [r2, s2]; ring, ?_, r4, s4⟩
  · rw [r2, s2, ← mul_assoc] at h0
    exact pos_of_mul_pos_right h0 (by positivity)
  · by_contra hg
    obtain ⟨p, hp, hd⟩ := Nat.exists_prime_and_dvd hg
    have d1 : (p : Int) ∣ a2 := (Int.natCast_dvd_natCast.2 hd).trans (Int.gcd_dvd_left ..)
    have d2 : (p : Int) ∣ e2 := (Int.natCast_dvd_natCast.2 hd).trans (Int.gcd_dvd_right ..)
    have d3 : (p : Int) ∣ 10 ^ x := by
      rw [r2, s2]
      exact (d2.mul_left _).mul_left _
    have d4 : p ∣ 10 := by
      have : p ∣ 10 ^ x := by exact_mod_cast d3
      exact hp.dvd_of_dvd_pow this
    have d5 : p ∣ 2 * 5 := d4
    rcases (Nat.Prime.dvd_mul hp).1 d5 with h | h
    · have := (Nat.prime_dvd_prime_iff_eq hp Nat.prime_two).1 h
      subst this
      exact r3 ⟨by rw [s1]; exact d1.mul_left _, by rw [s2]; exact d2.mul_left _⟩
    · have := (Nat.prime_dvd_prime_iff_eq hp Nat.prime_five).1 h
      subst this
      exact s3 ⟨d1, d2⟩

private theorem ten_pow_lt {L x : Nat} (hL : 268435456 ≤ L) (hx : x < 2147483648) : 10 ^ x < B32 ^ L := by
  have h1 : 10 ^ x ≤ (2 ^ 4) ^ x := Nat.pow_le_pow_left (by norm_num) x
  rw [← pow_mul] at h1
  have h2 : B32 ^ L = 2 ^ (32 * L) := by rw [pow_mul]; norm_num
  rw [h2]
  exact h1.trans_lt (Nat.pow_lt_pow_right (by norm_num) (by omega))

theorem scale10_c {L : Nat} (hL : 268435456 ≤ L) (hL' : L ≤ B32) {q : ℚ} (hn : q.num.natAbs < B32 ^ L)
    (hd : q.den < B32 ^ L) {x : Int} (h1 : -2147483648 < x) (h2 : x < 2147483648) :
    scale10 (ofRat q) x = pure (ofRat (q * 10 ^ x)) := by
  rw [scale10]
  by_cases hx : x = 0
  · rw [if_pos hx, hx, zpow_zero, mul_one]
  · have hab : i32AbsU32 x = pure x.natAbs := by rw [i32AbsU32, if_neg (by omega)]
    rw [if_neg hx, BigI.from_i32_c i10 (by omega), pure_bind, hab, pure_bind, BigI.pow_u32_c (by omega), pure_bind]
    have hq : q = q.num / q.den := (Rat.num_div_den q).symm
    have hden : (q.den : ℚ) ≠ 0 := den_neq q
    have ht := ten_pow_lt hL (show x.natAbs < 2147483648 by omega)
    by_cases hp : x > 0
    · rw [if_pos hp, denom_ofRat, numer_ofRat]
      obtain ⟨c, a', e', s, c0, e0, r1, r2, r3, r4, r5⟩ := cancel_c (a := (q.den : Int)) (by omega) hL'
        (by rwa [Int.natAbs_natCast]) ht
      rw [r4, pure_bind, r5, pure_bind, BigI.mul_mut_c, pure_bind]
      refine congrArg pure (mk_c ?_ ?_ ?_)
      · have := den_pos' q
        rw [r1] at this
        exact pos_of_mul_pos_right this c0.le
      · have g1 : Int.gcd q.num a' = 1 := by
          have : IsCoprime q.num (q.den : Int) := Int.isCoprime_iff_gcd_eq_one.2 q.reduced
          rw [r1] at this
          exact Int.isCoprime_iff_gcd_eq_one.1 (this.of_mul_right_right)
        rw [← Int.isCoprime_iff_gcd_eq_one] at g1 r3 ⊢
        exact g1.mul_left r3.symm
      · have ha' : (a' : ℚ) ≠ 0 := by
          intro h
          have : a' = 0 := by exact_mod_cast h
          rw [this, mul_zero] at r1
          exact den_ne q r1
        have r1' : (q.den : ℚ) = c * a' := by exact_mod_cast r1
        have r2' : (10 : ℚ) ^ x.natAbs = c * e' := by exact_mod_cast r2
        have hz : (10 : ℚ) ^ x = 10 ^ x.natAbs := by
          rw [← zpow_natCast]; congr 1; omega
        have hc : (c : ℚ) ≠ 0 := by exact_mod_cast c0.ne'
        rw [hz, r2']
        conv_rhs => rw [hq, r1']
        push_cast
        field_simp
    · rw [if_neg hp, denom_ofRat, numer_ofRat]
      obtain ⟨c, a', e', s, c0, e0, r1, r2, r3, r4, r5⟩ := cancel_c (a := q.num) (by omega) hL' hn ht
      rw [r4, pure_bind, r5, pure_bind, BigI.mul_mut_c, pure_bind]
      refine congrArg pure (mk_c ?_ ?_ ?_)
      · exact mul_pos (den_pos' q) e0
      · have g1 : Int.gcd a' q.den = 1 := by
          have : IsCoprime q.num (q.den : Int) := Int.isCoprime_iff_gcd_eq_one.2 q.reduced
          rw [r1] at this
          exact Int.isCoprime_iff_gcd_eq_one.1 (this.of_mul_left_right)
        rw [← Int.isCoprime_iff_gcd_eq_one] at g1 r3 ⊢
        exact g1.mul_right r3
      · have he' : (e' : ℚ) ≠ 0 := by exact_mod_cast e0.ne'
        have r1' : (q.num : ℚ) = c * a' := by exact_mod_cast r1
        have r2' : (10 : ℚ) ^ x.natAbs = c * e' := by exact_mod_cast r2
        have hz : (10 : ℚ) ^ x = (10 ^ x.natAbs)⁻¹ := by
          rw [← zpow_natCast, ← zpow_neg]; congr 1; omega
        have hc : (c : ℚ) ≠ 0 := by exact_mod_cast c0.ne'
        rw [hz, r2']
        conv_rhs => rw [hq, r1']
        push_cast
        field_simp

theorem scale10_min (r : Ratio) : scale10 r (-2147483648) = throw .overflow := rfl

/-! ### the parts -/

theorem toDigit10_eq (c : Char) : toDigit 10 c = match digitVal c with
    | some d => if d < 10 then some d else none
    | none => none := by
  rw [toDigit_ten, toDigit_eq]
  cases digitVal c <;> rfl

theorem fracLoop_c (s : Str) : ∀ (d n : Nat), fracLoop s (ofInt d) (ofInt n) =
    pure (match readDigits 10 (s.filter (· ≠ '_')) n with
      | .ok v => .ok (ofInt ((d * 10 ^ (s.filter (· ≠ '_')).length : Nat) : Int), ofInt (v : Nat))
      | .error e => .error e) := by
  induction s with
  | nil => intro d n; simp [fracLoop, readDigits]
  | cons c cs ih =>
    intro d n
    rw [fracLoop]
    by_cases hc : c = '_'
    · rw [if_pos hc, ih, List.filter_cons_of_neg (by simp [hc])]
    · rw [if_neg hc, List.filter_cons_of_pos (by simp [hc]), readDigits, toDigit10_eq]
      rcases hd : digitVal c with _ | v
      · rfl
      · simp only []
        by_cases hv : v < 10
        · rw [if_pos hv, if_pos hv]
          simp only []
          have e1 : ((d : Int) * 10) = ((d * 10 : Nat) : Int) := by push_cast; ring
          have e2 : ((n : Int) * 10 + (v : Int)) = ((n * 10 + v : Nat) : Int) := by push_cast; ring
          rw [BigI.mul_i32_mut_c i10 (by omega), pure_bind, BigI.mul_i32_mut_c i10 (by omega), pure_bind,
            BigI.add_i32_mut_c (by unfold IsI32; omega) (by omega), pure_bind, e1, e2, ih, List.length_cons]
          rw [show d * 10 * 10 ^ (List.filter (fun x => decide (x ≠ '_')) cs).length
            = d * 10 ^ ((List.filter (fun x => decide (x ≠ '_')) cs).length + 1) by rw [pow_succ]; ring]
        · rw [if_neg hv, if_neg hv]

/-! ### sizes -/

theorem readDigits_lt {b : Nat} : ∀ (l : Str) (acc v : Nat), readDigits b l acc = .ok v →
    v < (acc + 1) * b ^ l.length := by
  intro l
  induction l with
  | nil =>
    intro acc v h
    rw [readDigits] at h
    injection h with h
    subst h
    simp
  | cons c cs ih =>
    intro acc v h
    rw [readDigits] at h
    rcases hd : digitVal c with _ | d
    · rw [hd] at h; simp at h
    · rw [hd] at h
      simp only [] at h
      by_cases hb : d < b
      · rw [if_pos hb] at h
        have := ih _ _ h
        refine this.trans_le ?_
        rw [List.length_cons, pow_succ, mul_comm (b ^ cs.length) b, ← mul_assoc]
        refine Nat.mul_le_mul_right _ ?_
        nlinarith
      · rw [if_neg hb] at h; simp at h

theorem parseNat_lt {l : Str} {n : Nat} (h : parseNat l = .ok n) : n < 16 ^ l.length := by
  cases l with
  | nil => simp [parseNat] at h
  | cons c cs =>
    have hle : ∀ (b : Nat) (ds : Str), b ≤ 16 → ds.length ≤ cs.length + 1 → b ^ ds.length ≤ 16 ^ (c :: cs).length := by
      intro b ds hb hd
      exact (Nat.pow_le_pow_left hb _).trans (Nat.pow_le_pow_right (by norm_num) hd)
    have hf : (cs.filter (· ≠ '_')).length ≤ cs.length := List.length_filter_le _ _
    have hn : ∀ (b : Nat) (ds : Str), b ≤ 16 → ds.length ≤ cs.length + 1 → readNumeral b ds = .ok n →
        n < 16 ^ (c :: cs).length := by
      intro b ds hb hd hr
      rw [readNumeral] at hr
      split_ifs at hr
      have := readDigits_lt _ _ _ hr
      rw [zero_add, one_mul] at this
      exact this.trans_le (hle b ds hb hd)
    rw [parseNat] at h
    split_ifs at h with hc
    · rcases hds : cs.filter (· ≠ '_') with _ | ⟨x, ds⟩
      · rw [hds] at h
        injection h with h
        subst h
        positivity
      · rw [hds] at h hf
        rw [List.length_cons] at hf
        simp only [] at h
        split_ifs at h
        · exact hn _ _ (by norm_num) (by omega) h
        · exact hn _ _ (by norm_num) (by omega) h
        · exact hn _ _ (by norm_num) (by omega) h
    · have := readDigits_lt _ _ _ h
      rw [zero_add, one_mul] at this
      exact this.trans_le (hle 10 _ (by norm_num) (by rw [List.length_cons]; omega))

theorem parseInt_lt {l : Str} {z : Int} (h : parseInt l = .ok z) : z.natAbs < 16 ^ l.length := by
  unfold parseInt at h
  split at h
  · simp at h
  · rename_i s
    rcases hp : parseNat s with e | n
    · rw [hp] at h; simp [Except.map] at h
    · rw [hp] at h
      change Except.ok (-(n : Int)) = Except.ok z at h
      injection h with h
      subst h
      have := parseNat_lt hp
      rw [Int.natAbs_neg, Int.natAbs_natCast]
      exact this.trans_le (Nat.pow_le_pow_right (by norm_num) (by simp))
  · rename_i c s _
    rcases hp : parseNat (c :: s) with e | n
    · rw [hp] at h; simp [Except.map] at h
    · rw [hp] at h
      change Except.ok (n : Int) = Except.ok z at h
      injection h with h
      subst h
      rw [Int.natAbs_natCast]
      exact parseNat_lt hp

/-! ### the three parts together -/

/-- value of the optional digits after the point -/
def fracQ : Option Str → Except ConvErr ℚ
  | none => .ok 0
  | some F =>
    match readDigits 10 (F.filter (· ≠ '_')) 0 with
    | .ok v => .ok (v / 10 ^ (F.filter (· ≠ '_')).length)
    | .error e => .error e

/-- value of the optional exponent -/
def expQ : Option Str → Except ConvErr Int
  | none => .ok 0
  | some X =>
    match parseInt X with
    | .ok x => if -2147483648 ≤ x ∧ x ≤ 2147483647 then .ok x else .error .notInRange
    | .error e => .error e

/-- the result for the three parts -/
def finish (neg : Bool) (A : Str) (F X : Option Str) : M (Except ConvErr Ratio) :=
  match parseInt A with
  | .error e => pure (.error e)
  | .ok z =>
    match fracQ F with
    | .error e => pure (.error e)
    | .ok f =>
      match expQ X with
      | .error e => pure (.error e)
      | .ok x => if x = -2147483648 then throw .overflow
        else pure (.ok (ofRat ((z + if neg then -f else f) * 10 ^ x)))

theorem size_ok {A : Str} {F : Option Str} {z : Int} {f : ℚ} {neg : Bool} (hz : parseInt A = .ok z)
    (hf : fracQ F = .ok f) {m : Nat} (hm : A.length + (F.getD []).length ≤ m) {L : Nat} (hL : m < 8 * L) :
    (z + if neg then -f else f).num.natAbs < B32 ^ L ∧ (z + if neg then -f else f).den < B32 ^ L := by
  obtain ⟨v, k, hv, hk, rfl⟩ : ∃ v k : Nat, v < 10 ^ k ∧ k ≤ (F.getD []).length ∧ f = v / 10 ^ k := by
    cases F with
    | none =>
      simp only [fracQ, Except.ok.injEq] at hf
      exact ⟨0, 0, by norm_num, by simp, by rw [← hf]; simp⟩
    | some F =>
      rw [fracQ] at hf
      rcases hr : readDigits 10 (F.filter (· ≠ '_')) 0 with e | v
      · rw [hr] at hf; simp at hf
      · rw [hr] at hf
        simp only [Except.ok.injEq] at hf
        have := readDigits_lt _ _ _ hr
        rw [zero_add, one_mul] at this
        exact ⟨v, _, this, List.length_filter_le _ _, hf.symm⟩
  have hz' := parseInt_lt hz
  set N : Int := z * 10 ^ k + (if neg then -(v : Int) else v) with hN
  have e : (z + if neg then -((v : ℚ) / 10 ^ k) else (v : ℚ) / 10 ^ k) = (N : ℚ) / ((10 ^ k : Int) : ℚ) := by
    rw [hN]
    have : (10 : ℚ) ^ k ≠ 0 := by positivity
    cases neg
    · simp only [Bool.false_eq_true, if_false]
      push_cast
      field_simp
    · simp only [if_true]
      push_cast
      field_simp
  have hB : 16 ^ m < B32 ^ L := by
    have h1 : B32 ^ L = 2 ^ (32 * L) := by rw [pow_mul]; norm_num
    have h2 : 16 ^ m = 2 ^ (4 * m) := by rw [pow_mul]; norm_num
    rw [h1, h2]
    exact Nat.pow_lt_pow_right (by norm_num) (by omega)
  have h10 : 10 ^ k ≤ 16 ^ k := Nat.pow_le_pow_left (by norm_num) k
  have hpk : 16 ^ A.length * 16 ^ k ≤ 16 ^ m := by
    rw [← pow_add]
    exact Nat.pow_le_pow_right (by norm_num) (by omega)
  rw [e]
  constructor
  · have h1 := Rat.num_dvd N (b := 10 ^ k) (by positivity)
    rw [Rat.divInt_eq_div] at h1
    have h2 : N.natAbs < 16 ^ m := by
      have g1 : N.natAbs ≤ z.natAbs * 10 ^ k + v := by
        have := Int.natAbs_add_le (z * 10 ^ k) (if neg then -(v : Int) else v)
        rw [Int.natAbs_mul, Int.natAbs_pow] at this
        refine this.trans_eq ?_
        cases neg <;> simp
      have g2 : (z.natAbs + 1) * 10 ^ k ≤ 16 ^ A.length * 16 ^ k := Nat.mul_le_mul hz' h10
      rw [add_mul, one_mul] at g2
      omega
    by_cases h0 : N = 0
    · rw [h0]
      simp only [Int.cast_zero, zero_div, Rat.num_zero, Int.natAbs_zero]
      positivity
    · have := Nat.le_of_dvd (by omega) (Int.natAbs_dvd_natAbs.2 h1)
      omega
  · have h1 := Rat.den_dvd N (10 ^ k)
    have h2 : ((N : ℚ) / ((10 ^ k : Int) : ℚ)).den ≤ 10 ^ k := by
      refine Nat.le_of_dvd (by positivity) ?_
      have : (((N : ℚ) / ((10 ^ k : Int) : ℚ)).den : Int) ∣ ((10 ^ k : Nat) : Int) := by exact_mod_cast h1
      exact Int.natCast_dvd_natCast.1 this
    have h3 : 16 ^ k ≤ 16 ^ m := Nat.pow_le_pow_right (by norm_num) (by omega)
    exact (h2.trans (h10.trans h3)).trans_lt hB

theorem fracPart_c {s : Str} {dot e : Option Nat} {F : Option Str}
    (hF : (dot = none ∧ F = none) ∨ ∃ i G, dot = some i ∧ strGet s (i + 1) (e.getD s.length) = some G ∧ F = some G) :
    fracPart s dot e = pure ((fracQ F).map ofRat) := by
  rcases hF with ⟨rfl, rfl⟩ | ⟨i, G, rfl, h, rfl⟩
  · simp only [fracPart, fracQ, Except.map, zero_c]
  · simp only [fracPart, h]
    have h1 : BigI.one = ofInt ((1 : Nat) : Int) := BigI.one_c
    have h0 : BigI.zero = ofInt ((0 : Nat) : Int) := BigI.zero_c
    rw [h1, h0, fracLoop_c, pure_bind, fracQ]
    rcases readDigits 10 (G.filter (· ≠ '_')) 0 with e | v
    · rfl
    · simp only [Except.map]
      rw [from_dn_c (q := v / 10 ^ (G.filter (· ≠ '_')).length) (by positivity) (by push_cast; simp), pure_bind]

theorem expPart_c {s : Str} {e : Option Nat} {X : Option Str}
    (hX : (e = none ∧ X = none) ∨ ∃ i G, e = some i ∧ strGet s (i + 1) s.length = some G ∧ X = some G) :
    expPart s e = pure (expQ X) := by
  rcases hX with ⟨rfl, rfl⟩ | ⟨i, G, rfl, h, rfl⟩
  · rfl
  · simp only [expPart, h]
    rw [BigI.from_string_eq, pure_bind, expQ]
    rcases parseInt G with e | x
    · rfl
    · simp only [BigI.toRes]
      rw [BigI.to_i32_c]

theorem parseParts_c {s A : Str} {dot e : Option Nat} {F X : Option Str} {stop : Nat}
    (hs : dot = some stop ∨ dot = none ∧ e = some stop) (hA : strGet s 0 stop = some A)
    (hF : (dot = none ∧ F = none) ∨ ∃ i G, dot = some i ∧ strGet s (i + 1) (e.getD s.length) = some G ∧ F = some G)
    (hX : (e = none ∧ X = none) ∨ ∃ i G, e = some i ∧ strGet s (i + 1) s.length = some G ∧ X = some G)
    (hl : A.length + (F.getD []).length < 2 ^ 33) :
    parseParts s dot e = finish (decide (s.head? = some '-')) A F X := by
  have hstop : parseParts s dot e = (do
      let is ← unwrapO (strGet s 0 stop)
      match ← BigI.from_string is with
      | .error e => pure (.error e)
      | .ok ip => do
        match ← fracPart s dot e with
        | .error e => pure (.error e)
        | .ok fp => do
          match ← expPart s e with
          | .error e => pure (.error e)
          | .ok x => do
            let r ← assemble s ip fp x
            pure (.ok r)) := by
    unfold parseParts
    rcases hs with rfl | ⟨rfl, rfl⟩ <;> rfl
  rw [hstop, hA, fracPart_c hF, expPart_c hX]
  show (BigI.from_string A >>= _) = _
  rw [BigI.from_string_eq, pure_bind, finish]
  rcases hz : parseInt A with e' | z
  · rfl
  · simp only [BigI.toRes, pure_bind]
    rcases hf : fracQ F with e' | f
    · rfl
    · simp only [Except.map, pure_bind]
      rcases hx : expQ X with e' | x
      · rfl
      · simp only []
        rw [assemble]
        have hneg : (if s.head? = some '-' then (ofRat f).negate_mut else ofRat f)
            = ofRat (if decide (s.head? = some '-') = true then -f else f) := by
          by_cases hd : s.head? = some '-'
          · rw [if_pos hd, if_pos (by simpa using hd), negate_mut_c]
          · rw [if_neg hd, if_neg (by simpa using hd)]
        simp only [hneg]
        rw [from_bi_c, add_mut_c, pure_bind]
        by_cases hm : x = -2147483648
        · rw [if_pos hm, hm, scale10_min]; rfl
        · have hr : -2147483648 ≤ x ∧ x ≤ 2147483647 := by
            cases X with
            | none => simp only [expQ, Except.ok.injEq] at hx; omega
            | some X =>
              rw [expQ] at hx
              rcases hp : parseInt X with e' | y
              · rw [hp] at hx; simp at hx
              · rw [hp] at hx
                simp only [] at hx
                split_ifs at hx with h
                injection hx with hx
                omega
          obtain ⟨L, hL⟩ : ∃ L : Nat, L = 1073741825 := ⟨_, rfl⟩
          obtain ⟨g1, g2⟩ := size_ok (neg := decide (s.head? = some '-')) hz hf (le_refl _)
            (L := L) (by omega)
          rw [if_neg hm, scale10_c (L := L) (by omega) (by omega) g1 g2 (by omega) (by omega), pure_bind]

end Ratio
end Hmath
