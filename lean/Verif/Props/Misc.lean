import Verif.Model.Misc
import Verif.Proofs.Poly
import Verif.Proofs.Matrix
import Verif.Props.Funcs
import Verif.Props.Ieee
import Verif.Props.RatioStr

/-!
# C78: sums, products and functions that pass on to others; C79: random numbers
-/

namespace Hmath
namespace Props
open UBig

/-! ## C78 -/

theorem sumLoop_c (l : List UBig) (hl : ∀ x ∈ l, Valid x) : ∀ n, sumLoop l (ofNat n) = pure (ofNat (n + (l.map val).sum)) := by
  induction l with
  | nil => intro n; simp [sumLoop]
  | cons a l ih =>
    intro n
    have e := (hl a List.mem_cons_self).eq_ofNat
    rw [sumLoop, e, add_mut_c, pure_bind, ih (fun x hx => hl x (List.mem_cons_of_mem _ hx)), List.map_cons, List.sum_cons, val_ofNat, add_assoc]

theorem productLoop_c (l : List UBig) (hl : ∀ x ∈ l, Valid x) : ∀ n, productLoop l (ofNat n) = pure (ofNat (n * (l.map val).prod)) := by
  induction l with
  | nil => intro n; simp [productLoop]
  | cons a l ih =>
    intro n
    have e := (hl a List.mem_cons_self).eq_ofNat
    rw [productLoop, e, mul_mut_c, pure_bind, ih (fun x hx => hl x (List.mem_cons_of_mem _ hx)), List.map_cons, List.prod_cons, val_ofNat, mul_assoc]

/-- **C78, sums and products.**  `sum()` and `product()` of an iterator over `UBigInt`s are the sum and the product; 0 and 1 if there are
none. -/
theorem C78_sum {l : List UBig} (hl : ∀ x ∈ l, Valid x) : Computes (UBig.sum l) (l.map val).sum ∧ Computes (UBig.product l) (l.map val).prod := by
  have h0 : (zero : UBig) = ofNat 0 := by decide +kernel
  have h1 : (one : UBig) = ofNat 1 := by decide +kernel
  rw [UBig.sum, UBig.product, h0, h1, sumLoop_c l hl, productLoop_c l hl, zero_add, one_mul]
  exact ⟨⟨_, rfl, valid_ofNat _, val_ofNat _⟩, ⟨_, rfl, valid_ofNat _, val_ofNat _⟩⟩

example : Computes (UBig.sum [[7], [4294967295, 1], [1]]) 8589934599 ∧ Computes (UBig.product [[7], [0, 1], [3]]) 90194313216 := by
  have h1 := (C78_sum (l := [[7], [4294967295, 1], [1]]) (by decide)).1
  have h2 := (C78_sum (l := [[7], [0, 1], [3]]) (by decide)).2
  exact ⟨by simpa using h1, by simpa using h2⟩

/-- **C78, primes.**  For a `BigInt` the answer is that of its absolute value: whether it is prime, and the prime factors, none negative.
As for `UBigInt` (C12, C13) some large numbers panic. -/
theorem C78_prime {a : BigI} (ha : IValid a) (hl : a.mag.length ≤ 2 ^ 32) :
    (Panics (BigI.is_prime a) ∨ BigI.is_prime a = pure (decide (ival a).natAbs.Prime)) ∧
    (2 ≤ (ival a).natAbs → Panics (BigI.prime_factorial a) ∨ ∃ l, BigI.prime_factorial a = pure l ∧
      (∀ x ∈ l, IValid x ∧ 0 < ival x ∧ (ival x).natAbs.Prime) ∧ (l.map ival).Pairwise (· ≤ ·) ∧ (l.map ival).prod = |ival a|) ∧
    ((ival a).natAbs < 2 ^ 64 - 120283536 ^ 2 → ¬ Panics (BigI.is_prime a)) ∧
    (2 ≤ (ival a).natAbs → (ival a).natAbs < (2 ^ 32 - 1) ^ 2 → ¬ Panics (BigI.prime_factorial a)) := by
  have hv : val a.mag = (ival a).natAbs := by rw [ival]; split <;> simp
  rw [← hv]
  have npure : ∀ {α : Type} {m : M α} {x : α}, m = pure x → ¬ Panics m := by
    rintro α m x rfl ⟨p, hp⟩
    cases hp
  refine ⟨C12_is_prime_returned ha.mag hl, ?_, ?_, ?_⟩
  · intro h2
    rcases C13_prime_factorial_returned ha.mag hl h2 with ⟨p, h⟩ | ⟨l, h, h1, h3, h4⟩
    · left
      refine ⟨p, ?_⟩
      rw [BigI.prime_factorial, h]; rfl
    · right
      have e : ∀ y ∈ l, BigI.from_ubi y false = ofInt (val y) := by
        intro y hy
        rw [(h1 y hy).1.eq_ofNat, val_ofNat]
        exact BigI.from_ubi_c (by simp) (by intro _; simp)
      have em : (l.map fun n => BigI.from_ubi n false).map ival = (l.map val).map (fun n : Nat => (n : Int)) := by
        rw [List.map_map, List.map_map]
        refine List.map_congr_left fun y hy => ?_
        simp only [Function.comp]
        rw [e y hy, ival_ofInt]
      refine ⟨_, by rw [BigI.prime_factorial, h, pure_bind], ?_, ?_, ?_⟩
      · intro x hx
        obtain ⟨y, hy, rfl⟩ := List.mem_map.1 hx
        obtain ⟨y1, y2⟩ := h1 y hy
        rw [e y hy, ival_ofInt]
        refine ⟨ivalid_ofInt _, by exact_mod_cast y2.pos, by simpa using y2⟩
      · rw [em, List.pairwise_map]
        exact h3.imp fun h => by exact_mod_cast h
      · rw [em, ← Int.natCast_natAbs, ← hv, ← h4]
        push_cast
        rfl
  · intro hb
    exact npure (C12_is_prime_partial ha.mag hl (.inr (lt_of_le_of_lt (Nat.div_le_self _ _) hb)))
  · intro h2 hb
    obtain ⟨r, hr, -⟩ := C13_prime_factorial_partial ha.mag h2 hb
    exact npure (x := r.map fun n => BigI.from_ubi n false) (by rw [BigI.prime_factorial, hr, pure_bind])

example : IValid ⟨[91], true⟩ ∧ ival ⟨[91], true⟩ = -91 ∧ (ival ⟨[91], true⟩).natAbs < 2 ^ 64 - 120283536 ^ 2 := by decide +kernel

/-- **C78, Fibonacci numbers** of `BigInt` -/
theorem C78_fibonacci (n : Nat) : ComputesI (BigI.fibonacci n) (Nat.fib n) := by
  rw [BigI.fibonacci, fibonacci_eq, pure_bind, BigI.from_ubi_c (z := Nat.fib n) (by simp) (by intro _; simp)]
  exact ⟨_, rfl, ivalid_ofInt _, ival_ofInt _⟩

example : ComputesI (BigI.fibonacci 50) 12586269025 := by
  have := C78_fibonacci 50
  rwa [show Nat.fib 50 = 12586269025 by norm_num [Nat.fib]] at this

/-- **C78, coefficients as floats.**  `to_vec_f32` and `to_vec_f64` give one float for each coefficient, in order, relatively within half a
unit of it, provided that the coefficients are zero or normal floats up to rounding that does not carry (see C30). -/
theorem C78_to_vec {f m e} (h : Format f m e) {p : Poly} (hp : PValid p)
    (hl : ∀ x ∈ p.coeffs, x.numer.mag.length ≤ 2 ^ 58 ∧ x.denom.mag.length ≤ 2 ^ 26)
    (hE : ∀ x ∈ p.coeffs, rval x = 0 ∨ ∃ E : Int, 2 ^ E ≤ |rval x| ∧ |rval x| ≤ (2 - 2 ^ (-(m : ℤ) - 1)) * 2 ^ E ∧
      1 - (floatBias e : Int) ≤ E ∧ E ≤ floatBias e) :
    ∃ l, Poly.to_vec_float f p = pure l ∧
      List.Forall₂ (fun x b => ∃ v, floatVal m e b = .finite v ∧ |v - rval x| ≤ |rval x| / 2 ^ (m + 1)) p.coeffs l := by
  obtain ⟨L⟩ := p
  rw [Poly.to_vec_float]
  simp only at hl hE ⊢
  replace hp : ∀ x ∈ L, RValid x := hp
  induction L with
  | nil => exact ⟨[], rfl, .nil⟩
  | cons x L ih =>
    obtain ⟨l, l1, l2⟩ := ih (fun y hy => hl y (List.mem_cons_of_mem _ hy)) (fun y hy => hE y (List.mem_cons_of_mem _ hy))
      (fun y hy => hp y (List.mem_cons_of_mem _ hy))
    obtain ⟨n1, n2⟩ := hl x List.mem_cons_self
    have hx : ∃ v, ToFloat f m e x v ∧ |v - rval x| ≤ |rval x| / 2 ^ (m + 1) := by
      rcases hE x List.mem_cons_self with h0 | ⟨E, e1, e2, e3, e4⟩
      · have hx0 : x = ⟨⟨[1], false⟩, ⟨[0], false⟩⟩ := by
          rw [(hp x List.mem_cons_self).eq_ofRat, h0]; decide +kernel
        refine ⟨0, ⟨0, by positivity, by rw [hx0]; exact C30_zero h, ?_⟩, by rw [h0]; simp⟩
        cases h <;> simp [floatVal]
      · obtain ⟨v, v1, v2⟩ := C30_normal_partial h (hp x List.mem_cons_self) n1 n2 e1 e2 e3 e4
        refine ⟨v, v1, le_trans v2 ?_⟩
        rw [show (E - m - 1 : ℤ) = E - ((m + 1 : Nat) : ℤ) by push_cast; ring, zpow_sub₀ (by norm_num), zpow_natCast]
        exact div_le_div_of_nonneg_right e1 (by positivity)
    obtain ⟨v, ⟨b, -, b2, b3⟩, v2⟩ := hx
    refine ⟨b :: l, ?_, .cons ⟨v, b3, v2⟩ l2⟩
    rw [List.mapM_cons, b2]
    simp only [pure_bind, l1]

example : (let p := Poly.ofList [3 / 10, 0, -5]
    (∀ x ∈ p.coeffs, x.numer.mag.length ≤ 2 ^ 58 ∧ x.denom.mag.length ≤ 2 ^ 26) ∧
    ∀ x ∈ p.coeffs, rval x = 0 ∨ ∃ E ∈ [-2, 2], (2 : ℚ) ^ E ≤ |rval x| ∧ |rval x| ≤ (2 - 2 ^ (-((23 : Nat) : ℤ) - 1)) * 2 ^ (E : Int) ∧
      1 - (floatBias 8 : Int) ≤ E ∧ E ≤ floatBias 8) := by decide +kernel

/-- `to_vec_f32` and `to_vec_f64` panic if a coefficient is too large. -/
theorem C78_to_vec_panics {f m e} (h : Format f m e) {p : Poly} (hp : PValid p)
    (hl : ∀ x ∈ p.coeffs, x.numer.mag.length ≤ 2 ^ 27 ∧ x.denom.mag.length ≤ 2 ^ 26)
    (hb : ∃ x ∈ p.coeffs, 2 ^ (floatBias e + 2) ≤ |rval x|) : Panics (Poly.to_vec_float f p) := by
  obtain ⟨L⟩ := p
  rw [Poly.to_vec_float]
  simp only at hl hb ⊢
  replace hp : ∀ x ∈ L, RValid x := hp
  induction L with
  | nil => obtain ⟨x, hx, -⟩ := hb; exact absurd hx (by simp)
  | cons x L ih =>
    obtain ⟨n1, n2⟩ := hl x List.mem_cons_self
    rw [List.mapM_cons]
    obtain ⟨y, hy⟩ := C30_total h (hp x List.mem_cons_self) n1 n2
    rcases y with er | b
    · exact ⟨.unwrap, by rw [hy]; rfl⟩
    · have hb' : ∃ x ∈ L, 2 ^ (floatBias e + 2) ≤ |rval x| := by
        obtain ⟨z, hz, hz'⟩ := hb
        rcases List.mem_cons.1 hz with rfl | hz
        · rw [C30_too_big_partial h (hp z List.mem_cons_self) n1 n2 hz'] at hy
          cases hy
        · exact ⟨z, hz, hz'⟩
      obtain ⟨q, hq⟩ := ih (fun y hy => hl y (List.mem_cons_of_mem _ hy)) hb' (fun y hy => hp y (List.mem_cons_of_mem _ hy))
      exact ⟨q, by rw [hy, pure_bind]; simp only [pure_bind]; rw [hq]; rfl⟩

example : (let p := Poly.ofList [1, 2 ^ 130]
    (∀ x ∈ p.coeffs, x.numer.mag.length ≤ 2 ^ 27 ∧ x.denom.mag.length ≤ 2 ^ 26) ∧
    ∃ x ∈ p.coeffs, (2 : ℚ) ^ (floatBias 8 + 2) ≤ |rval x|) := by decide +kernel

/-- **C78, complex numbers from text.**  If both texts are read as numbers, the result has them as real and imaginary part; if the text for
the real part is not read, its error is returned, whatever the other text is. -/
theorem C78_complex {s t : List Char} :
    (∀ {a b : ℚ}, Parses s a → Parses t b → ∃ z, Complex.try_from_real_and_imag (Ratio.from_string s) (Ratio.from_string t) = pure (.ok z) ∧
      RValid z.real_ ∧ RValid z.imag_ ∧ rval z.real_ = a ∧ rval z.imag_ = b) ∧
    (∀ {e}, Ratio.from_string s = pure (.error e) →
      Complex.try_from_real_and_imag (Ratio.from_string s) (Ratio.from_string t) = pure (.error e)) ∧
    (∀ {a e}, Parses s a → Ratio.from_string t = pure (.error e) →
      Complex.try_from_real_and_imag (Ratio.from_string s) (Ratio.from_string t) = pure (.error e)) := by
  refine ⟨?_, ?_, ?_⟩
  · rintro a b ⟨x, x1, x2, x3⟩ ⟨y, y1, y2, y3⟩
    exact ⟨⟨x, y⟩, by rw [x1, y1]; rfl, x2, y2, x3, y3⟩
  · intro e h
    rw [h]; rfl
  · rintro a e ⟨x, x1, -, -⟩ h
    rw [x1, h]; rfl

example : ∃ z, Complex.try_from_real_and_imag (Ratio.from_string "-0xfe".toList) (Ratio.from_string "0xa".toList) = pure (.ok z) ∧
    RValid z.real_ ∧ RValid z.imag_ ∧ rval z.real_ = -254 ∧ rval z.imag_ = 10 := by
  have h1 := C28_integer (s := "-0xfe".toList) (z := -254) rfl (.inr ⟨true, 'x', "fe".toList, .inl rfl, by decide⟩)
  have h2 := C28_integer (s := "0xa".toList) (z := 10) rfl (.inr ⟨false, 'x', "a".toList, .inl rfl, by decide⟩)
  exact C78_complex.1 (by exact_mod_cast h1) (by exact_mod_cast h2)

/-! ## C79 -/

theorem val_range_lt {g : Nat → Nat} (hg : ∀ i, g i < B32) (k : Nat) : val ((List.range k).map g) < B32 ^ k := by
  have := val_lt (a := (List.range k).map g) (by
    intro d hd
    obtain ⟨i, -, rfl⟩ := List.mem_map.1 hd
    exact hg i)
  simpa using this

theorem val_range_succ (g : Nat → Nat) (k : Nat) :
    val ((List.range (k + 1)).map g) = val ((List.range k).map g) + B32 ^ k * g k := by
  rw [List.range_succ, List.map_append, val_append]
  simp

theorem digit_range {g : Nat → Nat} (hg : ∀ i, g i < B32) (k : Nat) : ∀ i < k, val ((List.range k).map g) / B32 ^ i % B32 = g i := by
  induction k with
  | zero => intro i hi; omega
  | succ k ih =>
    intro i hi
    have hlt := val_range_lt hg k
    rw [val_range_succ]
    rcases Nat.lt_succ_iff_lt_or_eq.1 hi with h | rfl
    · rw [← ih i h]
      have e : B32 ^ k * g k = B32 ^ i * (B32 * (B32 ^ (k - i - 1) * g k)) := by
        rw [← mul_assoc, ← mul_assoc, ← pow_succ, ← pow_add]
        congr 2
        omega
      rw [e, Nat.add_mul_div_left _ _ (by positivity), Nat.add_mul_mod_self_left]
    · rw [Nat.add_mul_div_left _ _ (by positivity), Nat.div_eq_of_lt hlt, zero_add, Nat.mod_eq_of_lt (hg i)]

theorem val_digits (n k : Nat) : val ((List.range k).map fun i => n / B32 ^ i % B32) = n % B32 ^ k := by
  induction k with
  | zero => simp [Nat.mod_one]
  | succ k ih => rw [val_range_succ, ih, Nat.mod_pow_succ]

/-- which numbers are drawn from 32 bit words that are not zero -/
def NonzeroWords (scale n : Nat) : Prop := n < 2 ^ (32 * scale) ∧ ∀ i < scale, n / 2 ^ (32 * i) % 2 ^ 32 ≠ 0

theorem words_val {src : Nat → Nat} (hs : ∀ i, src i < 2 ^ 32) (k : Nat) :
    NonzeroWords k (val ((List.range k).map fun i => max (src i) 1)) := by
  have hg : ∀ i, max (src i) 1 < B32 := fun i => by have := hs i; omega
  refine ⟨?_, ?_⟩
  · rw [pow_mul]; exact val_range_lt hg k
  · intro i hi
    rw [pow_mul]
    have := digit_range hg k i hi
    rw [show 2 ^ 32 = B32 from rfl, this]
    omega

theorem words_src {k n : Nat} (h : NonzeroWords k n) :
    ∃ src : Nat → Nat, (∀ i, src i < 2 ^ 32) ∧ val ((List.range k).map fun i => max (src i) 1) = n := by
  obtain ⟨h1, h2⟩ := h
  refine ⟨fun i => n / B32 ^ i % B32, fun i => Nat.mod_lt _ (by norm_num), ?_⟩
  have : (List.range k).map (fun i => max (n / B32 ^ i % B32) 1) = (List.range k).map fun i => n / B32 ^ i % B32 := by
    refine List.map_congr_left fun i hi => ?_
    have := h2 i (List.mem_range.1 hi)
    rw [pow_mul] at this
    exact max_eq_left (Nat.one_le_iff_ne_zero.2 this)
  rw [this, val_digits, Nat.mod_eq_of_lt]
  rw [pow_mul] at h1
  exact h1

theorem random_valid {src : Nat → Nat} (hs : ∀ i, src i < 2 ^ 32) {k : Nat} (hk : 0 < k) :
    Valid ((List.range k).map fun i => max (src i) 1) := by
  refine ⟨?_, ?_, ?_⟩
  · simp; omega
  · intro d hd
    obtain ⟨i, -, rfl⟩ := List.mem_map.1 hd
    have := hs i
    omega
  · intro _
    obtain ⟨k, rfl⟩ : ∃ m, k = m + 1 := ⟨k - 1, by omega⟩
    rw [List.range_succ, List.map_append]
    simp only [List.map_cons, List.map_nil, List.getLast?_append, List.getLast?_singleton, Option.some_or, ne_eq, Option.some.injEq]
    omega

theorem nonzeroWords_ge {k n : Nat} (hk : 0 < k) (h : NonzeroWords k n) : 2 ^ (32 * (k - 1)) ≤ n := by
  by_contra hn
  have := h.2 (k - 1) (by omega)
  rw [Nat.div_eq_of_lt (not_le.1 hn)] at this
  exact this rfl

/-- **C79, range.**  Whatever the random number generator answers, `UBigInt::random(scale)` is a number from 1 to `2^(32 scale) - 1`, and 0
if `scale` is 0. -/
theorem C79_ubig {src : Nat → Nat} (hs : ∀ i, src i < 2 ^ 32) (scale : Nat) :
    Valid (UBig.random src scale) ∧ (scale = 0 → val (UBig.random src scale) = 0) ∧
      (0 < scale → 1 ≤ val (UBig.random src scale) ∧ val (UBig.random src scale) < 2 ^ (32 * scale)) := by
  rw [UBig.random]
  by_cases h : scale = 0
  · rw [if_pos h]
    exact ⟨by decide, fun _ => by decide, fun h' => by omega⟩
  · rw [if_neg h]
    have hw := words_val hs scale
    exact ⟨random_valid hs (by omega), fun h' => absurd h' h, fun h' => ⟨le_trans Nat.one_le_two_pow (nonzeroWords_ge h' hw), hw.1⟩⟩

example : val (UBig.random (fun i => 5 * i) 3) = 1 + 5 * 2 ^ 32 + 10 * 2 ^ 64 := by decide +kernel

/-- **C79, values.**  The numbers that may come are those without a zero word. -/
theorem C79_values {scale : Nat} (h : 0 < scale) (n : Nat) :
    (∃ src : Nat → Nat, (∀ i, src i < 2 ^ 32) ∧ val (UBig.random src scale) = n) ↔ NonzeroWords scale n := by
  constructor
  · rintro ⟨src, hs, rfl⟩
    rw [UBig.random, if_neg (by omega)]
    exact words_val hs scale
  · intro hw
    obtain ⟨src, h1, h2⟩ := words_src hw
    exact ⟨src, h1, by rw [UBig.random, if_neg (by omega)]; exact h2⟩

/-- Every single nonzero word is a value. -/
example : ∃ src : Nat → Nat, (∀ i, src i < 2 ^ 32) ∧ val (UBig.random src 1) = 7 :=
  (C79_values (by decide) 7).2 ⟨by norm_num, by decide⟩

/-- So not every number of the documented range may come: for `scale = 2` none below `2^32`, although these are in it. -/
theorem C79_counterexample_range : ¬ ∀ n, 1 ≤ n → n < 2 ^ (32 * 2) →
    ∃ src : Nat → Nat, (∀ i, src i < 2 ^ 32) ∧ val (UBig.random src 2) = n := by
  intro h
  have := (C79_values (by norm_num) _).1 (h (2 ^ 32 - 1) (by norm_num) (by norm_num))
  exact absurd (this.2 1 (by norm_num)) (by norm_num)

/-- **C79, signed.**  `BigInt::random(scale)` has the magnitude of `UBigInt::random(scale)` and is negative if the random `bool` is true,
unless `scale` is 0. -/
theorem C79_big {src : Nat → Nat} (hs : ∀ i, src i < 2 ^ 32) (b : Bool) {scale : Nat} (h : 0 < scale) :
    IValid (BigI.random src b scale) ∧ (ival (BigI.random src b scale) < 0 ↔ b = true) ∧
      (ival (BigI.random src b scale)).natAbs = val (UBig.random src scale) := by
  obtain ⟨v, -, hr⟩ := C79_ubig hs scale
  obtain ⟨v1, -⟩ := hr h
  have e : BigI.random src b scale = ofInt (if b then -(val (UBig.random src scale) : Int) else val (UBig.random src scale)) := by
    rw [BigI.random, if_neg (by omega)]
    generalize hn : UBig.random src scale = u at *
    conv_lhs => rw [v.eq_ofNat]
    refine BigI.from_ubi_c (by split <;> simp) ?_
    intro _
    cases b <;> simp <;> omega
  rw [e, ival_ofInt]
  refine ⟨ivalid_ofInt _, ?_, ?_⟩
  · cases b <;> simp <;> omega
  · split <;> simp

example : ival (BigI.random (fun _ => 5) true 3) < 0 :=
  (C79_big (src := fun _ => 5) (fun _ => by norm_num) true (scale := 3) (by decide)).2.1.2 rfl

/-- and 0 if `scale` is 0 -/
theorem C79_big_zero (src : Nat → Nat) (b : Bool) : IValid (BigI.random src b 0) ∧ ival (BigI.random src b 0) = 0 := by
  rw [BigI.random, if_pos rfl]; decide

/-- `Ratio::random()` is the quotient -/
theorem ratio_random_c {src : Nat → Nat} (hs : ∀ i, src i < 2 ^ 32) :
    Ratio.random src = pure (ofRat ((val ((List.range 4).map fun i => max (src i) 1) : ℚ) / 2 ^ 128)) := by
  rw [Ratio.random]
  have hv := random_valid hs (k := 4) (by norm_num)
  generalize (List.range 4).map (fun i => max (src i) 1) = l at *
  have e1 : (⟨[0, 0, 0, 0, 1], false⟩ : BigI) = ofInt (2 ^ 128) := by decide +kernel
  have e2 : (⟨l, false⟩ : BigI) = ofInt (val l) := by
    conv_lhs => rw [hv.eq_ofNat]
    exact BigI.mk_eq (by simp) (by simp)
  rw [e1, e2]
  exact Ratio.fit_c (by norm_num) (by push_cast; rfl)

/-- **C79, fractions.**  `Ratio::random()` is in lowest terms, greater than 0 and less than 1; the values are the multiples of `2^-128`
whose numerator has no zero word. -/
theorem C79_ratio {src : Nat → Nat} (hs : ∀ i, src i < 2 ^ 32) :
    ∃ q, ComputesR (Ratio.random src) q ∧ 0 < q ∧ q < 1 ∧ ∃ n, NonzeroWords 4 n ∧ q = n / 2 ^ 128 := by
  have hw := words_val hs 4
  refine ⟨_, ⟨_, ratio_random_c hs, rvalid_ofRat _, rval_ofRat _⟩, ?_, ?_, _, hw, rfl⟩
  · have : 1 ≤ val ((List.range 4).map fun i => max (src i) 1) := le_trans Nat.one_le_two_pow (nonzeroWords_ge (by norm_num) hw)
    have : (0 : ℚ) < val ((List.range 4).map fun i => max (src i) 1) := by exact_mod_cast this
    positivity
  · rw [div_lt_one (by positivity)]
    exact_mod_cast hw.1

/-- every one of these values may come -/
theorem C79_ratio_values {n : Nat} (h : NonzeroWords 4 n) :
    ∃ src : Nat → Nat, (∀ i, src i < 2 ^ 32) ∧ ComputesR (Ratio.random src) (n / 2 ^ 128) := by
  obtain ⟨src, h1, rfl⟩ := words_src h
  exact ⟨src, h1, _, ratio_random_c h1, rvalid_ofRat _, rval_ofRat _⟩

example : NonzeroWords 4 0x123456789abcdef0123456789abcdef0 := by
  refine ⟨by norm_num, ?_⟩
  decide +kernel

/-- but `1/2`, for instance, never comes -/
theorem C79_ratio_half {src : Nat → Nat} (hs : ∀ i, src i < 2 ^ 32) : ¬ ComputesR (Ratio.random src) (1 / 2) := by
  rintro ⟨c, h1, -, h2⟩
  obtain ⟨q, ⟨c', h1', -, h2'⟩, -, -, n, hn, e⟩ := C79_ratio hs
  have hc : c = c' := by
    rw [h1] at h1'
    injection h1' with h; injection h
  rw [hc, h2', e] at h2
  have : n = 2 ^ 127 := by
    have : (n : ℚ) = 2 ^ 127 := by
      rw [div_eq_iff (by positivity)] at h2
      rw [h2]; norm_num
    exact_mod_cast this
  subst this
  exact absurd (hn.2 0 (by norm_num)) (by norm_num)

/-- the words 0, 5, 10 and 15, of which the first becomes 1 -/
example : ∃ q, ComputesR (Ratio.random fun i => 5 * i % 2 ^ 32) q ∧ 0 < q ∧ q < 1 ∧ ∃ n, NonzeroWords 4 n ∧ q = n / 2 ^ 128 :=
  C79_ratio fun _ => Nat.mod_lt _ (by norm_num)

/-- **C79, matrices.**  `Matrix::random(cols, rows)` has the given dimensions, and each entry is greater than 0 and less than 1. -/
theorem C79_matrix {src : Nat → Nat} (hs : ∀ i, src i < 2 ^ 32) (cols rows : Nat) :
    ∃ A, Mat.random src cols rows = pure A ∧ MValid A ∧ A.rows = rows ∧ A.cols = cols ∧
      ∀ i < rows, ∀ j < cols, 0 < entry A i j ∧ entry A i j < 1 := by
  have key : ∀ i j, ∃ q : ℚ, Ratio.random (fun k => src (4 * (i * cols + j) + k)) = pure (ofRat q) ∧ 0 < q ∧ q < 1 := by
    intro i j
    obtain ⟨q, ⟨c, c1, c2, c3⟩, q1, q2, -⟩ := C79_ratio (src := fun k => src (4 * (i * cols + j) + k)) (fun k => hs _)
    exact ⟨q, by rw [c1, c2.eq_ofRat, c3], q1, q2⟩
  choose F hF using key
  refine ⟨Mat.ofFun F rows cols, ?_, Mat.mvalid_ofFun, rfl, rfl, ?_⟩
  · rw [Mat.random, mapM_pure' (g := fun i => (List.range cols).map fun j => ofRat (F i j)), pure_bind]
    · rfl
    · intro i _
      exact mapM_pure' fun j _ => (hF i j).1
  · intro i hi j hj
    rw [Mat.entry_ofFun hi hj]
    exact (hF i j).2

example : ∃ A, Mat.random (fun i => i % 2 ^ 32) 3 2 = pure A ∧ MValid A ∧ A.rows = 2 ∧ A.cols = 3 ∧
    ∀ i < 2, ∀ j < 3, 0 < entry A i j ∧ entry A i j < 1 := C79_matrix (fun _ => Nat.mod_lt _ (by norm_num)) 3 2

end Props
end Hmath
