import Verif.Proofs.Fp192Str

/-!
# C66: 192-bit floating point numbers from strings
-/

namespace Hmath
namespace Props

open F192 (mk' mg ulp sgn Nrm Z ZERO ONE)

/-- the value of a digit or of a letter -/
def charVal (c : Char) : Option Nat :=
  if 48 ≤ c.toNat ∧ c.toNat ≤ 57 then some (c.toNat - 48)
  else if 97 ≤ c.toNat ∧ c.toNat ≤ 122 then some (c.toNat - 87)
  else if 65 ≤ c.toNat ∧ c.toNat ≤ 90 then some (c.toNat - 55)
  else none

/-- `c` is the digit `d` of base `b` -/
def DigitOf (b : Nat) (c : Char) (d : Nat) : Prop := charVal c = some d ∧ d < b

/-- digits of base `b` and underscores -/
def Digits (b : Nat) (t : List Char) : Prop := ∀ c ∈ t, c = '_' ∨ ∃ d, DigitOf b c d

/-- the digits of a text -/
def digitsOf (b : Nat) (t : List Char) : List Nat := t.filterMap fun c => (charVal c).filter (· < b)

/-- the number that a list of digits denotes -/
def digitsVal (b : Nat) (ds : List Nat) : Nat := ds.foldl (fun a d => a * b + d) 0

/-- `0`, or digits of which the first is not zero -/
def IntPart (s : List Char) : Prop := s = ['0'] ∨ ∃ c t, s = c :: t ∧ (∃ d, DigitOf 10 c d ∧ 0 < d) ∧ Digits 10 t

/-- nothing, or a point and digits -/
def FracPart (s : List Char) : Prop := s = [] ∨ ∃ t, s = '.' :: t ∧ Digits 10 t

/-- digits with an optional sign -/
def ExpText (t : List Char) (x : Int) : Prop :=
  ∃ u, u ≠ [] ∧ (∀ c ∈ u, ∃ d, DigitOf 10 c d) ∧
    (t = u ∧ x = digitsVal 10 (digitsOf 10 u) ∨ t = '+' :: u ∧ x = digitsVal 10 (digitsOf 10 u) ∨
      t = '-' :: u ∧ x = -digitsVal 10 (digitsOf 10 u))

/-- nothing, or `e` and an integer -/
def ExpPart (s : List Char) (x : Int) : Prop := s = [] ∧ x = 0 ∨ ∃ c t, s = c :: t ∧ (c = 'e' ∨ c = 'E') ∧ ExpText t x

/-- a decimal number: sign, integer, fraction and exponent.  `ds` are its digits, the last one of weight `10 ^ y`. -/
def DecimalText (s : List Char) (neg : Bool) (ds : List Nat) (y : Int) : Prop :=
  ∃ ip fp ep x, s = (if neg then ['-'] else []) ++ ip ++ (fp ++ ep) ∧ IntPart ip ∧ FracPart fp ∧ ExpPart ep x ∧
    ds = digitsOf 10 ip ++ digitsOf 10 fp ∧ y = x - (digitsOf 10 fp).length

/-- the letters of the bases -/
def BaseLetter (c : Char) (b : Nat) : Prop :=
  (c = 'x' ∨ c = 'X') ∧ b = 16 ∨ (c = 'o' ∨ c = 'O') ∧ b = 8 ∨ (c = 'b' ∨ c = 'B') ∧ b = 2

/-- a whole number in base 16, 8 or 2 -/
def BaseText (s : List Char) (neg : Bool) (b : Nat) (ds : List Nat) : Prop :=
  ∃ c t, s = (if neg then ['-'] else []) ++ '0' :: c :: t ∧ BaseLetter c b ∧ Digits b t ∧ ds = digitsOf b t

private theorem filter_some_of {b d : Nat} (h : d < b) : (some d).filter (fun x => decide (x < b)) = some d := by
  simp [Option.filter, h]

private theorem filter_none_of {b d : Nat} (h : ¬ d < b) : (some d).filter (fun x => decide (x < b)) = none := by
  simp [Option.filter, h]

theorem toDigit_charVal (b : Nat) (c : Char) : toDigit b c = (charVal c).filter (· < b) := by
  unfold toDigit charVal
  simp only []
  split_ifs with h1 h2 h3 h4 h5 h6 h7
  all_goals first
    | rw [filter_some_of (by assumption)]
    | rw [filter_none_of (by assumption)]
    | (exfalso; omega)
    | rfl

theorem toDigit_digitOf {b d : Nat} {c : Char} : toDigit b c = some d ↔ DigitOf b c d := by
  rw [toDigit_charVal, DigitOf, Option.filter_eq_some_iff]
  simp

theorem isDigit_digitOf {c : Char} : F192.isDigit c = true ↔ ∃ d, DigitOf 10 c d := by
  unfold F192.isDigit
  rw [Option.isSome_iff_exists]
  simp only [toDigit_digitOf]

theorem digitsOf_eq (b : Nat) (t : List Char) : t.filterMap (toDigit b) = digitsOf b t := by
  unfold digitsOf
  congr 1
  funext c
  exact toDigit_charVal b c

theorem digitsVal_bval (b : Nat) : ∀ (ds : List Nat) (a : Nat), ds.foldl (fun a d => a * b + d) a = F192.bval b ds a
  | [], _ => rfl
  | d :: ds, a => by rw [List.foldl_cons, F192.bval, digitsVal_bval b ds]

theorem filter_digits : ∀ (t : List Char) (a : Nat), (t.filter F192.isDigit).length = (digitsOf 10 t).length ∧
    F192.dval (t.filter F192.isDigit) a = F192.bval 10 (digitsOf 10 t) a
  | [], _ => ⟨rfl, rfl⟩
  | c :: t, a => by
    rw [← digitsOf_eq]
    by_cases hc : F192.isDigit c = true
    · have h := (F192.digit_c hc).2.2
      rw [List.filter_cons_of_pos hc, List.filterMap_cons_some h, digitsOf_eq, List.length_cons, List.length_cons, F192.dval, F192.bval]
      exact ⟨by rw [(filter_digits t 0).1], (filter_digits t _).2⟩
    · have h : toDigit 10 c = none := by
        unfold F192.isDigit at hc
        cases h' : toDigit 10 c
        · rfl
        · rw [h'] at hc; simp at hc
      rw [List.filter_cons_of_neg hc, List.filterMap_cons_none h, digitsOf_eq]
      exact filter_digits t a

theorem digitsOf_append (b : Nat) (s t : List Char) : digitsOf b (s ++ t) = digitsOf b s ++ digitsOf b t :=
  List.filterMap_append ..

theorem digits_iff {t : List Char} : (∀ c ∈ t, F192.isDigit c = true ∨ c = '_') ↔ Digits 10 t := by
  unfold Digits
  constructor <;> intro h c hc
  · rcases h c hc with h | h
    · exact Or.inr (isDigit_digitOf.1 h)
    · exact Or.inl h
  · rcases h c hc with h | h
    · exact Or.inr h
    · exact Or.inl (isDigit_digitOf.2 h)

theorem first_iff {c : Char} : (F192.isDigit c = true ∧ c ≠ '0') ↔ ∃ d, DigitOf 10 c d ∧ 0 < d := by
  have h0 : DigitOf 10 '0' 0 := by constructor <;> decide
  constructor
  · rintro ⟨h1, h2⟩
    obtain ⟨d, hd⟩ := isDigit_digitOf.1 h1
    refine ⟨d, hd, Nat.pos_of_ne_zero ?_⟩
    rintro rfl
    obtain ⟨q1, q2, q3⟩ := F192.digit_c h1
    rw [toDigit_digitOf.2 hd] at q3
    have : c.toNat = 48 := by have := Option.some.inj q3; omega
    exact h2 (Char.ext (UInt32.toNat_inj.1 (by exact this)))
  · rintro ⟨d, h1, h2⟩
    refine ⟨isDigit_digitOf.2 ⟨d, h1⟩, ?_⟩
    rintro rfl
    have := Option.some.inj (h0.1.symm.trans h1.1)
    omega

theorem int_iff {s : List Char} : (s = ['0'] ∨ ∃ c t, s = c :: t ∧ F192.isDigit c = true ∧ c ≠ '0' ∧ ∀ c ∈ t, F192.isDigit c = true ∨ c = '_') ↔
    IntPart s := by
  unfold IntPart
  constructor
  · rintro (h | ⟨c, t, h1, h2, h3, h4⟩)
    · exact Or.inl h
    · exact Or.inr ⟨c, t, h1, first_iff.1 ⟨h2, h3⟩, digits_iff.1 h4⟩
  · rintro (h | ⟨c, t, h1, h2, h4⟩)
    · exact Or.inl h
    · exact Or.inr ⟨c, t, h1, (first_iff.2 h2).1, (first_iff.2 h2).2, digits_iff.2 h4⟩

theorem frac_iff {s : List Char} : (s = [] ∨ ∃ t, s = '.' :: t ∧ ∀ c ∈ t, F192.isDigit c = true ∨ c = '_') ↔ FracPart s := by
  unfold FracPart
  simp only [digits_iff]

theorem exp_iff {t : List Char} {x : Int} : F192.IntLit t x ↔ ExpText t x := by
  have hv : ∀ u : List Char, (∀ c ∈ u, F192.isDigit c = true) → F192.dval u 0 = digitsVal 10 (digitsOf 10 u) := by
    intro u hu
    rw [digitsVal, digitsVal_bval, ← (filter_digits u 0).2, List.filter_eq_self.2 hu]
  have hd : ∀ u : List Char, (∀ c ∈ u, F192.isDigit c = true) ↔ (∀ c ∈ u, ∃ d, DigitOf 10 c d) := by
    intro u
    simp only [isDigit_digitOf]
  unfold F192.IntLit ExpText
  constructor
  · rintro ⟨u, h1, h2, h3⟩
    exact ⟨u, h1, (hd u).1 h2, by rw [← hv u h2]; exact h3⟩
  · rintro ⟨u, h1, h2, h3⟩
    have h2 := (hd u).2 h2
    exact ⟨u, h1, h2, by rw [hv u h2]; exact h3⟩

private theorem base_iff {b : Nat} {t : List Char} : (∀ c ∈ t, c = '_' ∨ ∃ d, toDigit b c = some d) ↔ Digits b t := by
  unfold Digits
  simp only [toDigit_digitOf]

/-- the digits without the zero before the point -/
def sigDs : List Nat → List Nat
  | 0 :: t => t
  | l => l

private theorem digitsOf_cons {c : Char} (h : F192.isDigit c = true) (t : List Char) : ∃ d, DigitOf 10 c d ∧ digitsOf 10 (c :: t) = d :: digitsOf 10 t := by
  obtain ⟨d, hd⟩ := isDigit_digitOf.1 h
  refine ⟨d, hd, ?_⟩
  rw [← digitsOf_eq, List.filterMap_cons_some (toDigit_digitOf.2 hd), digitsOf_eq]

private theorem digitsOf_filter : ∀ t : List Char, digitsOf 10 (t.filter F192.isDigit) = digitsOf 10 t
  | [] => rfl
  | c :: t => by
    by_cases hc : F192.isDigit c = true
    · obtain ⟨d, h1, h2⟩ := digitsOf_cons hc t
      obtain ⟨d', h1', h2'⟩ := digitsOf_cons hc (t.filter F192.isDigit)
      rw [List.filter_cons_of_pos hc, h2, h2', digitsOf_filter t, Option.some.inj (h1.1.symm.trans h1'.1)]
    · have h : toDigit 10 c = none := by
        unfold F192.isDigit at hc
        cases h' : toDigit 10 c
        · rfl
        · rw [h'] at hc; simp at hc
      rw [List.filter_cons_of_neg hc, ← digitsOf_eq 10 (c :: t), List.filterMap_cons_none h, digitsOf_eq, digitsOf_filter t]

private theorem digitsOf_take : ∀ (k : Nat) (l : List Char), (∀ c ∈ l, F192.isDigit c = true) → digitsOf 10 (l.take k) = (digitsOf 10 l).take k
  | 0, l, _ => by simp [digitsOf]
  | k + 1, [], _ => by simp [digitsOf]
  | k + 1, c :: t, h => by
    have hc := h c (List.mem_cons_self ..)
    obtain ⟨d, h1, h2⟩ := digitsOf_cons hc t
    obtain ⟨d', h1', h2'⟩ := digitsOf_cons hc (t.take k)
    rw [List.take_succ_cons, h2, h2', List.take_succ_cons, digitsOf_take k t fun c hc => h c (List.mem_cons_of_mem _ hc),
      Option.some.inj (h1.1.symm.trans h1'.1)]

private theorem dval_digits {l : List Char} (h : ∀ c ∈ l, F192.isDigit c = true) : F192.dval l 0 = digitsVal 10 (digitsOf 10 l) ∧
    l.length = (digitsOf 10 l).length := by
  have h1 := filter_digits l 0
  rw [List.filter_eq_self.2 h] at h1
  rw [digitsVal, digitsVal_bval]
  exact ⟨h1.2, h1.1⟩

private theorem text_form {s : List Char} {neg : Bool} {ds : List Nat} {y : Int} (h : DecimalText s neg ds y) (hl : -2 ^ 63 < y)
    (hu : y + ds.length < 2 ^ 63) : ∃ gs : List Char, (∀ c ∈ gs, F192.isDigit c = true) ∧ digitsOf 10 gs = sigDs ds ∧
      (F192.from_str s = (do let r ← F192.finishNumber neg gs y; pure (.ok r)) ∨ gs = [] ∧ F192.from_str s = pure (.ok ZERO)) := by
  obtain ⟨ip, fp, ep, x, rfl, hi, hf, he, rfl, rfl⟩ := h
  have hl' := (filter_digits fp 0).1
  rw [List.length_append] at hu
  norm_num at hl hu
  refine ⟨F192.sigDigits ip fp, ?_, ?_, F192.from_str_dec (x := x) neg (int_iff.2 hi) (frac_iff.2 hf) (ep := ep) (by
    rcases he with h | ⟨c, t, h1, h2, h3⟩
    · exact Or.inl h
    · exact Or.inr ⟨c, t, h1, h2, exp_iff.2 h3⟩) (y := x - (digitsOf 10 fp).length) (by rw [hl']) (by omega) (by omega)⟩
  · intro c hc
    rw [F192.sigDigits, List.mem_append] at hc
    rcases hc with hc | hc
    · split at hc
      · simp at hc
      · exact List.of_mem_filter hc
    · exact List.of_mem_filter hc
  · rw [F192.sigDigits, digitsOf_append, digitsOf_filter]
    rcases hi with rfl | ⟨c, t, rfl, ⟨d, hd, h0⟩, -⟩
    · rfl
    · have hne : c :: t ≠ ['0'] := by
        intro h
        rw [(List.cons.inj h).1] at hd
        have : some 0 = some d := hd.1
        have := Option.some.inj this
        omega
      rw [if_neg hne, digitsOf_filter]
      obtain ⟨d', h1, h2⟩ := digitsOf_cons (isDigit_digitOf.2 ⟨d, hd⟩) t
      obtain rfl := Option.some.inj (hd.1.symm.trans h1.1)
      rw [h2, List.cons_append]
      cases d with
      | zero => omega
      | succ d => rfl

private theorem sigDs_len (ds : List Nat) : (sigDs ds).length ≤ ds.length ∧ ds.length ≤ (sigDs ds).length + 1 := by
  unfold sigDs
  split <;> simp

private theorem sigDs_val (ds : List Nat) : digitsVal 10 (sigDs ds) = digitsVal 10 ds := by
  unfold sigDs
  split
  · rfl
  · rfl

private theorem bval_append (l t : List Nat) (a : Nat) : F192.bval 10 (l ++ t) a = F192.bval 10 t (F192.bval 10 l a) := by
  rw [← digitsVal_bval, ← digitsVal_bval, ← digitsVal_bval, List.foldl_append]

private theorem bval_lt : ∀ (l : List Nat) (a : Nat), (∀ d ∈ l, d < 10) → a * 10 ^ l.length ≤ F192.bval 10 l a ∧ F192.bval 10 l a < (a + 1) * 10 ^ l.length := by
  intro l
  induction l with
  | nil => intro a _; simp [F192.bval]
  | cons d l ih =>
    intro a hl
    rw [F192.bval, List.length_cons, pow_succ]
    have h1 := ih (a * 10 + d) fun x hx => hl x (List.mem_cons_of_mem _ hx)
    have h2 := hl d (List.mem_cons_self ..)
    constructor
    · calc a * (10 ^ l.length * 10) = (a * 10) * 10 ^ l.length := by ring
        _ ≤ (a * 10 + d) * 10 ^ l.length := Nat.mul_le_mul_right _ (by omega)
        _ ≤ _ := h1.1
    · calc F192.bval 10 l (a * 10 + d) < (a * 10 + d + 1) * 10 ^ l.length := h1.2
        _ ≤ ((a + 1) * 10) * 10 ^ l.length := Nat.mul_le_mul_right _ (by omega)
        _ = (a + 1) * (10 ^ l.length * 10) := by ring

private theorem digits_lt {s : List Char} {neg : Bool} {ds : List Nat} {y : Int} (h : DecimalText s neg ds y) : ∀ d ∈ ds, d < 10 := by
  obtain ⟨ip, fp, ep, x, -, -, -, -, rfl, -⟩ := h
  intro d hd
  rw [← digitsOf_append, ← digitsOf_eq] at hd
  obtain ⟨c, -, hc⟩ := List.mem_filterMap.1 hd
  exact F192.toDigit_lt hc

private theorem cut_bounds {l : List Nat} (h : ∀ d ∈ l, d < 10) : digitsVal 10 (l.take 39) * 10 ^ (l.length - 39) ≤ digitsVal 10 l ∧
    digitsVal 10 l < (digitsVal 10 (l.take 39) + 1) * 10 ^ (l.length - 39) := by
  have := bval_lt (l.drop 39) (digitsVal 10 (l.take 39)) fun d hd => h d (List.mem_of_mem_drop hd)
  rw [List.length_drop, digitsVal, digitsVal_bval, ← bval_append, List.take_append_drop] at this
  rw [digitsVal, digitsVal, digitsVal_bval, digitsVal_bval]
  exact this

/-- the relative error of scaling by `10^y` -/
def scaleBound (y : Int) : ℚ := if y = 0 then 0 else ((|y| : Int) + 2 : ℚ) / 2 ^ 124

/-- Of a decimal number only the first 39 digits, not counting a zero before the point, are used.  When they denote a number `D < 2^128` and
the exponent `y'` after moving the point behind them is from `-165492990270` to `5552853823701 · 10^6`, the number is read up to the digits left out and a
relative error of at most `(|y'| + 2) / 2^124`; if no digits are left out and `y'` is 0, exactly.  The one exception is a `D` of `2^96` or more,
for which the code may panic instead. -/
theorem C66_decimal_long {s : List Char} {neg : Bool} {ds : List Nat} {y y' : Int} (h : DecimalText s neg ds y) (h48 : -2 ^ 48 ≤ y) {D : Nat}
    (hD : D = digitsVal 10 ((sigDs ds).take 39)) (hD' : D < 2 ^ 128) (hy' : y' = y + ((sigDs ds).length - 39 : Nat))
    (hl : -165492990270 ≤ y') (hu : y' ≤ 5552853823701 * 10 ^ 6) :
    (∃ z, F192.from_str s = pure (.ok z) ∧ FValid z ∧
      |fval z - (if neg then -1 else 1) * digitsVal 10 ds * 10 ^ y| ≤
        D * 10 ^ y' * scaleBound y' + (if (sigDs ds).length ≤ 39 then 0 else 10 ^ y')) ∨
    2 ^ 96 ≤ D ∧ Panics (F192.from_str s) := by
  have hlen := sigDs_len ds
  norm_num at h48 hD' hl hu
  obtain ⟨gs, hg1, hg2, hg3⟩ := text_form h (by norm_num; omega) (by norm_num; omega)
  have hgd := dval_digits fun c hc => hg1 c (List.mem_of_mem_take (i := 39) hc)
  rw [digitsOf_take 39 gs hg1, hg2, ← hD] at hgd
  have hgl := (dval_digits hg1).2
  rw [hg2] at hgl
  have hdl : ∀ d ∈ sigDs ds, d < 10 := by
    intro d hd
    apply digits_lt h
    unfold sigDs at hd
    split at hd
    · exact List.mem_cons_of_mem _ hd
    · exact hd
  have hcut := cut_bounds hdl
  rw [← hD, sigDs_val] at hcut
  have hexact : (sigDs ds).length ≤ 39 → y' = y ∧ digitsVal 10 ds = D := by
    intro h
    rw [Nat.sub_eq_zero_of_le h] at hy' hcut
    simp only [pow_zero, mul_one, Nat.cast_zero, add_zero] at hy' hcut
    exact ⟨hy', by omega⟩
  have herr : |(digitsVal 10 ds : ℚ) * 10 ^ y - D * 10 ^ y'| ≤ if (sigDs ds).length ≤ 39 then 0 else 10 ^ y' := by
    by_cases hs : (sigDs ds).length ≤ 39
    · rw [if_pos hs, (hexact hs).1, (hexact hs).2, sub_self, abs_zero]
    · rw [if_neg hs]
      have ht : (10 : ℚ) ^ y' = 10 ^ ((sigDs ds).length - 39) * 10 ^ y := by
        rw [hy', zpow_add₀ (by norm_num), zpow_natCast, mul_comm]
      have hp : (0 : ℚ) < 10 ^ y := by positivity
      have c1 : (D : ℚ) * 10 ^ ((sigDs ds).length - 39) ≤ digitsVal 10 ds := by exact_mod_cast hcut.1
      have c2 : (digitsVal 10 ds : ℚ) ≤ (D + 1) * 10 ^ ((sigDs ds).length - 39) := by exact_mod_cast hcut.2.le
      have d1 := mul_le_mul_of_nonneg_right c1 hp.le
      have d2 := mul_le_mul_of_nonneg_right c2 hp.le
      rw [ht, abs_le]
      constructor <;> linarith
  have e1 : sgn neg = (if neg then -1 else 1 : ℚ) := by cases neg <;> rfl
  rcases hg3 with hg3 | ⟨rfl, hg3⟩
  · rcases F192.finishNumber_c (x := y) (x' := y') neg hg1 (by omega) (by rw [hgl]; exact hy') (by omega) (by omega) (by omega) with
      ⟨z, z1, z2, z3⟩ | ⟨z1, z2⟩
    · left
      refine ⟨z, by rw [hg3, z1, pure_bind], z2, ?_⟩
      rw [hgd.1] at z3
      have e2 : F192.scaleErr y' = scaleBound y' := by
        unfold F192.scaleErr scaleBound
        rw [← Nat.cast_natAbs]
      rw [e2] at z3
      rw [← e1]
      have e3 : fval z - sgn neg * digitsVal 10 ds * 10 ^ y = (fval z - sgn neg * D * 10 ^ y') - sgn neg * (digitsVal 10 ds * 10 ^ y - D * 10 ^ y') := by ring
      rw [e3]
      refine le_trans (abs_sub _ _) (add_le_add z3 ?_)
      rw [abs_mul, F192.abs_sgn, one_mul]
      exact herr
    · right
      rw [hgd.1] at z1
      refine ⟨le_trans (by norm_num) z1, ?_⟩
      rw [hg3]
      exact F192.panics_bind z2 _
  · left
    refine ⟨ZERO, hg3, by decide, ?_⟩
    rw [show digitsOf 10 [] = [] from rfl] at hg2
    have hs : (sigDs ds).length ≤ 39 := by rw [← hg2]; simp
    have hD0 : D = 0 := by rw [hD, ← hg2]; rfl
    rw [(hexact hs).2, hD0, F192.fval_zero, if_pos hs]
    simp

/-- The same for at most 39 digits. -/
theorem C66_decimal_partial {s : List Char} {neg : Bool} {ds : List Nat} {y : Int} (h : DecimalText s neg ds y)
    (h39 : ds.length ≤ 39) (hD : digitsVal 10 ds < 2 ^ 128) (hl : -165492990270 ≤ y) (hu : y ≤ 5552853823701 * 10 ^ 6) :
    (∃ z, F192.from_str s = pure (.ok z) ∧ FValid z ∧
      |fval z - (if neg then -1 else 1) * digitsVal 10 ds * 10 ^ y| ≤ digitsVal 10 ds * 10 ^ y * scaleBound y) ∨
    2 ^ 96 ≤ digitsVal 10 ds ∧ Panics (F192.from_str s) := by
  have hlen := (sigDs_len ds).1.trans h39
  have := C66_decimal_long (y' := y) h (le_trans (by norm_num) hl) (D := digitsVal 10 ds) (by rw [List.take_of_length_le hlen, sigDs_val]) hD
    (by rw [Nat.sub_eq_zero_of_le hlen]; simp) hl hu
  rwa [if_pos hlen, add_zero] at this

/-- At most 28 digits never panic. -/
theorem C66_decimal_28 {s : List Char} {neg : Bool} {ds : List Nat} {y : Int} (h : DecimalText s neg ds y)
    (h28 : ds.length ≤ 28) (hl : -165492990270 ≤ y) (hu : y ≤ 5552853823701 * 10 ^ 6) :
    ∃ z, F192.from_str s = pure (.ok z) ∧ FValid z ∧
      |fval z - (if neg then -1 else 1) * digitsVal 10 ds * 10 ^ y| ≤ digitsVal 10 ds * 10 ^ y * scaleBound y := by
  have hlt : digitsVal 10 ds < 10 ^ 28 := by
    have := (bval_lt ds 0 (digits_lt h)).2
    rw [digitsVal, digitsVal_bval]
    calc _ < (0 + 1) * 10 ^ ds.length := this
      _ ≤ 1 * 10 ^ 28 := Nat.mul_le_mul_left _ (Nat.pow_le_pow_right (by norm_num) h28)
      _ = _ := by norm_num
  rcases C66_decimal_partial h (by omega) (lt_trans hlt (by norm_num)) hl hu with h | ⟨h, -⟩
  · exact h
  · exact absurd (lt_of_le_of_lt h hlt) (by norm_num)

/-- An exponent below `-2^48` gives zero; the number is below `2^(-2^48)`, while the least positive numbers are `2^(127 - 2^48)` and more. -/
theorem C66_underflow {s : List Char} {neg : Bool} {ds : List Nat} {y : Int} (h : DecimalText s neg ds y) (h39 : ds.length ≤ 39)
    (hl : -2 ^ 63 < y) (hu : y < -2 ^ 48) {k : Int} (hk : k = 2 ^ 48) :
    F192.from_str s = pure (.ok ZERO) ∧ (digitsVal 10 ds : ℚ) * 10 ^ y < 2 ^ (-k) := by
  norm_num at hl hu hk
  constructor
  · obtain ⟨gs, -, -, hg | ⟨-, hg⟩⟩ := text_form h (by norm_num; omega) (by norm_num; omega)
    · rw [hg, F192.finishNumber, if_pos (by omega)]
      rfl
    · exact hg
  · have h1 := (bval_lt ds 0 (digits_lt h)).2
    rw [zero_add, one_mul, ← digitsVal_bval] at h1
    change digitsVal 10 ds < _ at h1
    have h2 : (digitsVal 10 ds : ℚ) < 10 ^ ((ds.length : Nat) : ℤ) := by rw [zpow_natCast]; exact_mod_cast h1
    have hp : (0 : ℚ) < 10 ^ y := by positivity
    obtain ⟨j, hj⟩ : ∃ j : Nat, ((ds.length : Nat) : ℤ) + y = -(j : ℤ) := ⟨(-(((ds.length : Nat) : ℤ) + y)).toNat, by omega⟩
    have h3 : (10 : ℚ) ^ (-(j : ℤ)) ≤ 2 ^ (-(3 * j : ℤ)) := by
      rw [zpow_neg, zpow_neg, zpow_natCast, zpow_mul, zpow_natCast]
      exact inv_anti₀ (by positivity) (pow_le_pow_left₀ (by norm_num) (by norm_num) j)
    calc (digitsVal 10 ds : ℚ) * 10 ^ y < 10 ^ ((ds.length : Nat) : ℤ) * 10 ^ y := mul_lt_mul_of_pos_right h2 hp
      _ = 10 ^ (-(j : ℤ)) := by rw [← zpow_add₀ (by norm_num), hj]
      _ ≤ 2 ^ (-(3 * j : ℤ)) := h3
      _ ≤ 2 ^ (-k) := zpow_le_zpow_right₀ (by norm_num) (by omega)

/-- An exponent of `5552853823702 · 10^6` or more panics, even if all digits are 0; only the text of a single 0 does not. -/
theorem C66_overflow {s : List Char} {neg : Bool} {ds : List Nat} {y : Int} (h : DecimalText s neg ds y) (h38 : ds.length ≤ 38)
    (h0 : ds ≠ [0]) (hl : 5552853823702 * 10 ^ 6 ≤ y) (hu : y < 2 ^ 63 - 38) : Panics (F192.from_str s) := by
  norm_num at hl hu
  obtain ⟨gs, hg1, hg2, hg⟩ := text_form h (by norm_num; omega) (by norm_num; omega)
  have hgd := dval_digits hg1
  rw [hg2] at hgd
  have hlen := sigDs_len ds
  have hne : sigDs ds ≠ [] := by
    intro hs
    unfold sigDs at hs
    split at hs
    · exact h0 (by rw [hs])
    · obtain ⟨ip, fp, ep, x, -, hi, -, -, rfl, -⟩ := h
      rw [← digitsOf_append] at hs
      rcases hi with rfl | ⟨c, t, rfl, ⟨d, hd, -⟩, -⟩
      · cases hs
      · obtain ⟨d', -, h2⟩ := digitsOf_cons (isDigit_digitOf.2 ⟨d, hd⟩) (t ++ fp)
        rw [List.cons_append, h2] at hs
        cases hs
  rcases hg with hg | ⟨rfl, -⟩
  swap
  · exact absurd hg2.symm hne
  rw [hg]
  apply F192.panics_bind
  refine F192.finishNumber_overflow neg hg1 (by omega) ?_ (by omega) (by omega)
  have h1 := (bval_lt ds 0 (digits_lt h)).2
  rw [zero_add, one_mul, ← digitsVal_bval] at h1
  rw [hgd.1, sigDs_val]
  exact lt_of_lt_of_le h1 (le_trans (Nat.pow_le_pow_right (by norm_num) h38) (by norm_num))

private theorem wrong_c {s : List Char} {neg : Bool} {ds : List Nat} {n t : Nat} (h : DecimalText s neg ds (-n)) (h28 : ds.length ≤ 28)
    (h0 : digitsVal 10 ds ≠ 0) (hl : 165492990271 ≤ n) (hn : n ≤ 281474976710656) (ht : t = 1099511627774) :
    Panics (F192.from_str s) ∧ ¬(165492990272 ≤ n ∧ n ≤ 496000000000) ∨
    ∃ z, F192.from_str s = pure (.ok z) ∧ FValid z ∧ (digitsVal 10 ds : ℚ) * 10 ^ (-n : Int) * 2 ^ t ≤ |fval z| := by
  have h1 := (bval_lt ds 0 (digits_lt h)).2
  rw [zero_add, one_mul, ← digitsVal_bval] at h1
  change digitsVal 10 ds < _ at h1
  have h2 : digitsVal 10 ds < 10 ^ 28 := lt_of_lt_of_le h1 (Nat.pow_le_pow_right (by norm_num) h28)
  norm_num at h2
  obtain ⟨gs, hg1, hg2, hg⟩ := text_form h (by norm_num; omega) (by norm_num; omega)
  have hgd := dval_digits hg1
  rw [hg2, sigDs_val] at hgd
  have hlen := sigDs_len ds
  rcases hg with hg | ⟨rfl, -⟩
  swap
  · exact absurd hgd.1.symm h0
  rcases F192.finishNumber_wrong (s := gs) (n := n) neg hg1 (by omega) (by omega) (by omega) hl hn ht with ⟨r1, r2⟩ | ⟨m, e, r1, r2, r3, r4, r5⟩
  · refine Or.inl ⟨?_, r2⟩
    rw [hg]
    exact F192.panics_bind r1 _
  · refine Or.inr ⟨_, by rw [hg, r1, pure_bind], F192.valid_mk r2 r4, ?_⟩
    rw [F192.fval_mk r2 r3, abs_mul, F192.abs_sgn, one_mul, abs_of_pos (F192.mg_pos r2), zpow_neg, zpow_natCast, ← hgd.1]
    exact r5

/-- Right below the range of `C66_decimal_partial`, and down to the exponent `-2^48` from which on zero is read, every number other than zero
is read wrong: the code panics, or the result is too large by a factor of at least `2^(2^40 - 2)`. -/
theorem C66_below_counterexample {s : List Char} {neg : Bool} {ds : List Nat} {y : Int} (h : DecimalText s neg ds y) (h28 : ds.length ≤ 28)
    (h0 : digitsVal 10 ds ≠ 0) (hl : -2 ^ 48 ≤ y) (hu : y ≤ -165492990271) {t : Nat} (ht : t = 2 ^ 40 - 2) :
    Panics (F192.from_str s) ∨
    ∃ z, F192.from_str s = pure (.ok z) ∧ FValid z ∧ (digitsVal 10 ds : ℚ) * 10 ^ y * 2 ^ t ≤ |fval z| := by
  norm_num at hl ht
  obtain ⟨n, rfl⟩ : ∃ n : Nat, y = -n := ⟨y.natAbs, by omega⟩
  rcases wrong_c h h28 h0 (by omega) (by omega) ht with ⟨h, -⟩ | h
  · exact Or.inl h
  · exact Or.inr h

/-- From `-496 · 10^9` to `-165492990272` it does not panic. -/
theorem C66_wrong_counterexample {s : List Char} {neg : Bool} {ds : List Nat} {y : Int} (h : DecimalText s neg ds y) (h28 : ds.length ≤ 28)
    (h0 : digitsVal 10 ds ≠ 0) (hl : -496 * 10 ^ 9 ≤ y) (hu : y ≤ -165492990272) {t : Nat} (ht : t = 2 ^ 40 - 2) :
    ∃ z, F192.from_str s = pure (.ok z) ∧ FValid z ∧ (digitsVal 10 ds : ℚ) * 10 ^ y * 2 ^ t ≤ |fval z| := by
  norm_num at hl ht
  obtain ⟨n, rfl⟩ : ∃ n : Nat, y = -n := ⟨y.natAbs, by omega⟩
  rcases wrong_c h h28 h0 (by omega) (by omega) ht with ⟨-, h⟩ | h
  · omega
  · exact h

/-- For an exponent from `-330 · 10^9` to `-165492990272` the number is tiny, but a number of `2^(10^9)` or more is read. -/
theorem C66_tiny_counterexample {s : List Char} {neg : Bool} {ds : List Nat} {y : Int} (h : DecimalText s neg ds y) (h28 : ds.length ≤ 28)
    (h0 : digitsVal 10 ds ≠ 0) (hl : -330 * 10 ^ 9 ≤ y) (hu : y ≤ -165492990272) {k : Nat} (hk : k = 10 ^ 9) :
    (∃ z, F192.from_str s = pure (.ok z) ∧ FValid z ∧ 2 ^ k ≤ |fval z|) ∧ (digitsVal 10 ds : ℚ) * 10 ^ y < 1 := by
  norm_num at hl hk
  obtain ⟨t, ht⟩ : ∃ t : Nat, t = 1099511627774 := ⟨_, rfl⟩
  obtain ⟨z, z1, z2, z3⟩ := C66_wrong_counterexample h h28 h0 (by norm_num; omega) hu (t := t) (by norm_num; omega)
  obtain ⟨n, rfl⟩ : ∃ n : Nat, y = -n := ⟨y.natAbs, by omega⟩
  have h1 := (bval_lt ds 0 (digits_lt h)).2
  rw [zero_add, one_mul, ← digitsVal_bval] at h1
  change digitsVal 10 ds < _ at h1
  rw [zpow_neg, zpow_natCast] at *
  constructor
  · refine ⟨z, z1, z2, le_trans ?_ z3⟩
    have h59 : (10 : ℚ) ^ (59 * 5593220339) ≤ 2 ^ (196 * 5593220339) := by
      obtain ⟨q, hq⟩ : ∃ q, q = 5593220339 := ⟨_, rfl⟩
      rw [← hq, pow_mul, pow_mul]
      exact pow_le_pow_left₀ (by norm_num) (by norm_num) _
    obtain ⟨i, hi⟩ : ∃ i, i = 59 * 5593220339 := ⟨_, rfl⟩
    obtain ⟨j, hj⟩ : ∃ j, j = 196 * 5593220339 := ⟨_, rfl⟩
    rw [← hi, ← hj] at h59
    have h3 : (10 : ℚ) ^ n ≤ 2 ^ j := le_trans (pow_le_pow_right₀ (by norm_num) (by omega)) h59
    have h4 : (1 : ℚ) ≤ digitsVal 10 ds := by exact_mod_cast Nat.one_le_iff_ne_zero.2 h0
    have h5 : (2 : ℚ) ^ k * 2 ^ j ≤ 2 ^ t := by
      rw [← pow_add]
      exact pow_le_pow_right₀ (by norm_num) (by omega)
    have hT : (0 : ℚ) < 10 ^ n := by positivity
    have h6 : (2 : ℚ) ^ k ≤ (10 ^ n)⁻¹ * 2 ^ t := by
      rw [← div_eq_inv_mul, le_div_iff₀ hT]
      exact le_trans (mul_le_mul_of_nonneg_left h3 (by positivity)) h5
    refine le_trans h6 ?_
    rw [mul_assoc]
    exact le_mul_of_one_le_left (by positivity) h4
  · rw [mul_inv_lt_iff₀ (by positivity), one_mul]
    have : digitsVal 10 ds < 10 ^ n := lt_of_lt_of_le h1 (Nat.pow_le_pow_right (by norm_num) (by omega))
    exact_mod_cast this

private theorem text_e {sg : List Char} {u : List Char} {x : Int} (hu : u ≠ [] ∧ ∀ c ∈ u, ∃ d, DigitOf 10 c d)
    (hx : sg = [] ∧ x = digitsVal 10 (digitsOf 10 u) ∨ sg = ['-'] ∧ x = -digitsVal 10 (digitsOf 10 u)) :
    DecimalText ('1' :: 'e' :: (sg ++ u)) false [1] x := by
  refine ⟨['1'], [], 'e' :: (sg ++ u), x, rfl, Or.inr ⟨'1', [], rfl, ⟨1, ⟨rfl, by decide⟩, by decide⟩, by simp [Digits]⟩, Or.inl rfl,
    Or.inr ⟨'e', sg ++ u, rfl, Or.inl rfl, u, hu.1, hu.2, ?_⟩, by decide, by simp [digitsOf]⟩
  rcases hx with ⟨rfl, h⟩ | ⟨rfl, h⟩
  · exact Or.inl ⟨rfl, h⟩
  · exact Or.inr (Or.inr ⟨rfl, h⟩)

private theorem digits_all {u : List Char} (h : ∀ c ∈ u, F192.isDigit c = true) : ∀ c ∈ u, ∃ d, DigitOf 10 c d := fun c hc => isDigit_digitOf.1 (h c hc)

/-- "1e-165492990271" is read wrong: `10^165492990271` is just above `2^(2^39)` -/
example {t : Nat} (ht : t = 2 ^ 40 - 2) : Panics (F192.from_str "1e-165492990271".toList) ∨
    ∃ z, F192.from_str "1e-165492990271".toList = pure (.ok z) ∧ FValid z ∧ (digitsVal 10 [1] : ℚ) * 10 ^ (-165492990271 : Int) * 2 ^ t ≤ |fval z| :=
  C66_below_counterexample (text_e (sg := ['-']) (u := "165492990271".toList) (x := -165492990271)
    ⟨by decide, digits_all (by decide)⟩ (Or.inr ⟨rfl, by decide +kernel⟩)) (by decide) (by decide) (by norm_num) (by norm_num) ht

/-- so is "1e-400000000000" -/
example {t : Nat} (ht : t = 2 ^ 40 - 2) :
    ∃ z, F192.from_str "1e-400000000000".toList = pure (.ok z) ∧ FValid z ∧ (digitsVal 10 [1] : ℚ) * 10 ^ (-400000000000 : Int) * 2 ^ t ≤ |fval z| :=
  C66_wrong_counterexample (text_e (sg := ['-']) (u := "400000000000".toList) (x := -400000000000)
    ⟨by decide, digits_all (by decide)⟩ (Or.inr ⟨rfl, by decide +kernel⟩)) (by decide) (by decide) (by norm_num) (by norm_num) ht

/-- "1e-165492990270" is read right -/
example : ∃ z, F192.from_str "1e-165492990270".toList = pure (.ok z) ∧ FValid z := by
  obtain ⟨z, h1, h2, -⟩ := C66_decimal_28 (text_e (sg := ['-']) (u := "165492990270".toList) (x := -165492990270)
    ⟨by decide, digits_all (by decide)⟩ (Or.inr ⟨rfl, by decide +kernel⟩)) (by decide) (by norm_num) (by norm_num)
  exact ⟨z, h1, h2⟩

/-- "1e-300000000000" is read as a number above `2^(10^9)` -/
example {k : Nat} (hk : k = 10 ^ 9) : ∃ z, F192.from_str "1e-300000000000".toList = pure (.ok z) ∧ FValid z ∧ 2 ^ k ≤ |fval z| :=
  (C66_tiny_counterexample (text_e (sg := ['-']) (u := "300000000000".toList) (x := -300000000000)
    ⟨by decide, digits_all (by decide)⟩ (Or.inr ⟨rfl, by decide +kernel⟩)) (by decide) (by decide) (by norm_num) (by norm_num) hk).1

/-- "1e-300000000000000" is zero -/
example : F192.from_str "1e-300000000000000".toList = pure (.ok ZERO) :=
  (C66_underflow (text_e (sg := ['-']) (u := "300000000000000".toList) (x := -300000000000000)
    ⟨by decide, digits_all (by decide)⟩ (Or.inr ⟨rfl, by decide +kernel⟩)) (by decide) (by norm_num) (by norm_num) rfl).1

/-- "1e5552853823702000000" panics -/
example : Panics (F192.from_str "1e5552853823702000000".toList) :=
  C66_overflow (text_e (sg := []) (u := "5552853823702000000".toList) (x := 5552853823702000000)
    ⟨by decide, digits_all (by decide)⟩ (Or.inl ⟨rfl, by decide +kernel⟩)) (by decide) (by decide) (by norm_num) (by norm_num)

/-- the bounds of the exponent hold for "1e5552853823701000000" -/
example : ∃ z, F192.from_str "1e5552853823701000000".toList = pure (.ok z) ∧ FValid z := by
  obtain ⟨z, h1, h2, -⟩ := C66_decimal_28 (text_e (sg := []) (u := "5552853823701000000".toList) (x := 5552853823701000000)
    ⟨by decide, digits_all (by decide)⟩ (Or.inl ⟨rfl, by decide +kernel⟩)) (by decide) (by norm_num) (by norm_num)
  exact ⟨z, h1, h2⟩

/-- a number of 42 digits -/
example : ∃ D : Nat, D = 120000000000000000000000000000000000000 ∧
    DecimalText ('1' :: '2' :: List.replicate 40 '0') false (1 :: 2 :: List.replicate 40 0) 0 ∧
    D = digitsVal 10 ((sigDs (1 :: 2 :: List.replicate 40 0)).take 39) ∧ D < 2 ^ 128 ∧ (sigDs (1 :: 2 :: List.replicate 40 0)).length = 42 := by
  refine ⟨_, rfl, ⟨'1' :: '2' :: List.replicate 40 '0', [], [], 0, rfl, Or.inr ⟨'1', '2' :: List.replicate 40 '0', rfl,
    ⟨1, ⟨rfl, by decide⟩, by decide⟩, ?_⟩, Or.inl rfl, Or.inl ⟨rfl, rfl⟩, by decide +kernel, by decide⟩, by decide +kernel, by norm_num, by decide +kernel⟩
  rw [← digits_iff]
  decide +kernel

/-- "-1_2.50e+3" denotes `-1250 · 10^1` -/
example : DecimalText ['-', '1', '_', '2', '.', '5', '0', 'e', '+', '3'] true [1, 2, 5, 0] 1 := by
  refine ⟨['1', '_', '2'], ['.', '5', '0'], ['e', '+', '3'], 3, rfl, Or.inr ⟨'1', ['_', '2'], rfl, ⟨1, ⟨rfl, by decide⟩, by decide⟩, ?_⟩,
    Or.inr ⟨['5', '0'], rfl, ?_⟩, Or.inr ⟨'e', ['+', '3'], rfl, Or.inl rfl, ['3'], by simp, ?_, Or.inr (Or.inl ⟨rfl, rfl⟩)⟩, by decide, by decide⟩
  · intro c hc
    simp only [List.mem_cons, List.not_mem_nil, or_false] at hc
    rcases hc with rfl | rfl
    · exact Or.inl rfl
    · exact Or.inr ⟨2, rfl, by decide⟩
  · intro c hc
    simp only [List.mem_cons, List.not_mem_nil, or_false] at hc
    rcases hc with rfl | rfl
    · exact Or.inr ⟨5, rfl, by decide⟩
    · exact Or.inr ⟨0, rfl, by decide⟩
  · intro c hc
    simp only [List.mem_cons, List.not_mem_nil, or_false] at hc
    rw [hc]
    exact ⟨3, rfl, by decide⟩

example : ∃ z, F192.from_str ['1', '7'] = pure (.ok z) ∧ fval z = 17 := by
  obtain ⟨z, h1, -, h3⟩ := C66_decimal_28 (s := ['1', '7']) (neg := false) (ds := [1, 7]) (y := 0)
    ⟨['1', '7'], [], [], 0, rfl, Or.inr ⟨'1', ['7'], rfl, ⟨1, ⟨rfl, by decide⟩, by decide⟩, by
      intro c hc
      simp only [List.mem_cons, List.not_mem_nil, or_false] at hc
      rw [hc]
      exact Or.inr ⟨7, rfl, by decide⟩⟩, Or.inl rfl, Or.inl ⟨rfl, rfl⟩, by decide, by decide⟩ (by decide) (by norm_num) (by norm_num)
  have hd : digitsVal 10 [1, 7] = 17 := rfl
  rw [hd] at h3
  unfold scaleBound at h3
  refine ⟨z, h1, ?_⟩
  norm_num at h3
  linarith

/-- A number in base 16, 8 or 2 is read with a relative error below `(n / 15) / 2^124` for `n` digits, and up to 15 digits exactly;
it is never rounded up.  The sign is accepted and has no effect (see `C66_base_sign_counterexample`). -/
theorem C66_base {s : List Char} {neg : Bool} {b : Nat} {ds : List Nat} (h : BaseText s neg b ds) (hl : ds.length ≤ 10 ^ 12) :
    ∃ z, F192.from_str s = pure (.ok z) ∧ FValid z ∧ fval z ≤ digitsVal b ds ∧
      digitsVal b ds * (1 - ((ds.length - 1) / 15 : Nat) / 2 ^ 124) ≤ fval z := by
  obtain ⟨c, t, rfl, hc, ht, rfl⟩ := h
  rw [← digitsOf_eq] at hl ⊢
  obtain ⟨r, k, h1, ⟨h2, h3, h4⟩, h5⟩ := F192.from_str_base (c := c) (b := b) (t := t) neg hc (base_iff.2 ht) (le_trans hl (by norm_num))
  rw [← digitsVal_bval] at h3 h4
  refine ⟨r, h1, h2, h3, le_trans (mul_le_mul_of_nonneg_left ?_ (Nat.cast_nonneg _)) h4⟩
  have : (k : ℚ) ≤ (((t.filterMap (toDigit b)).length - 1) / 15 : Nat) := by
    exact_mod_cast (Nat.le_div_iff_mul_le (by norm_num)).2 (by omega)
  have h' := div_le_div_of_nonneg_right this (show (0 : ℚ) ≤ 2 ^ 124 by norm_num)
  linarith

/-- "0xff_f" is 4095 -/
example : ∃ z, F192.from_str ['0', 'x', 'f', 'F', '_', 'f'] = pure (.ok z) ∧ fval z = 4095 := by
  obtain ⟨z, h1, -, h3, h4⟩ := C66_base (s := ['0', 'x', 'f', 'F', '_', 'f']) (neg := false) (b := 16) (ds := [15, 15, 15])
    ⟨'x', ['f', 'F', '_', 'f'], rfl, Or.inl ⟨Or.inl rfl, rfl⟩, by
      intro c hc
      simp only [List.mem_cons, List.not_mem_nil, or_false] at hc
      rcases hc with rfl | rfl | rfl | rfl
      · exact Or.inr ⟨15, rfl, by decide⟩
      · exact Or.inr ⟨15, rfl, by decide⟩
      · exact Or.inl rfl
      · exact Or.inr ⟨15, rfl, by decide⟩, by decide⟩ (by norm_num)
  have hd : digitsVal 16 [15, 15, 15] = 4095 := rfl
  rw [hd] at h3 h4
  refine ⟨z, h1, ?_⟩
  norm_num at h3 h4
  linarith

/-- Every other string is rejected with an error (and without a panic), except that `e` may also stand alone at the end. -/
theorem C66_reject {s : List Char} (h1 : ∀ neg b ds, ¬BaseText s neg b ds) (h2 : ∀ neg ds y, ¬DecimalText s neg ds y)
    (h3 : ∀ u c neg ds y, s = u ++ [c] → (c = 'e' ∨ c = 'E') → ¬DecimalText u neg ds y) :
    ∃ e, F192.from_str s = pure (.error e) := by
  rcases F192.from_str_form s with h | ⟨g, ⟨c, b, t, q1, q2, q3⟩ | ⟨ip, fp, ep, q1, q2, q3, q4⟩⟩
  · exact h
  · exact absurd ⟨c, t, q1, q2, base_iff.1 q3, rfl⟩ (h1 g b (digitsOf b t))
  · rcases q4 with rfl | ⟨c, v, rfl, hc, rfl | ⟨x, hx⟩⟩
    · exact absurd ⟨ip, fp, [], 0, q1, int_iff.1 q2, frac_iff.1 q3, Or.inl ⟨rfl, rfl⟩, rfl, rfl⟩ (h2 g _ _)
    · refine absurd ⟨ip, fp, [], 0, rfl, int_iff.1 q2, frac_iff.1 q3, Or.inl ⟨rfl, rfl⟩, rfl, rfl⟩
        (h3 ((if g then ['-'] else []) ++ ip ++ (fp ++ [])) c g _ _ ?_ hc)
      rw [q1]
      simp
    · exact absurd ⟨ip, fp, _, x, q1, int_iff.1 q2, frac_iff.1 q3, Or.inr ⟨c, v, rfl, hc, exp_iff.1 hx⟩, rfl, rfl⟩ (h2 g _ _)

/-- "+1" has none of the forms -/
example : ∃ e, F192.from_str ['+', '1'] = pure (.error e) := by
  have hip : ∀ (u : List Char), IntPart u → u.head? ≠ some '+' := by
    rintro u (rfl | ⟨c, t, rfl, ⟨d, hd, -⟩, -⟩)
    · decide
    · rintro h
      rw [Option.some.inj h] at hd
      exact absurd (show none = some d from hd.1) (by simp)
  have hne : ∀ (u : List Char), IntPart u → u ≠ [] := by
    rintro u (rfl | ⟨c, t, rfl, -⟩) <;> simp
  have hdec : ∀ (u w : List Char) neg ds y, ['+', '1'] = u ++ w → u ≠ [] → ¬DecimalText u neg ds y := by
    rintro u w neg ds y h h0 ⟨ip, fp, ep, x, rfl, hi, -⟩
    obtain ⟨c, t, hip'⟩ := List.exists_cons_of_ne_nil (hne ip hi)
    have := hip ip hi
    cases neg
    · rw [hip'] at h this
      exact this (by rw [List.head?_cons, (List.cons.inj h).1])
    · exact absurd (List.cons.inj h).1 (by decide)
  refine C66_reject ?_ (fun neg ds y => hdec _ [] neg ds y rfl (by simp)) ?_
  · rintro neg b ds ⟨c, t, h, -⟩
    cases neg
    · exact absurd (List.cons.inj h).1 (by decide)
    · exact absurd (List.cons.inj h).1 (by decide)
  · intro u c neg ds y h hc hd
    refine hdec u [c] neg ds y h ?_ hd
    rintro rfl
    exact absurd (congrArg List.length h) (by simp)

private instance : DecidableEq (M (Except ConvErr F192)) := inferInstanceAs (DecidableEq (Option (Except Panic (Except ConvErr F192))))

/-- The sign of a number in base 16, 8 or 2 is dropped: "-0x10" is 16. -/
theorem C66_base_sign_counterexample : ∃ z, F192.from_str "-0x10".toList = pure (.ok z) ∧ fval z = 16 := by
  obtain ⟨z, h1, -, h3, h4⟩ := C66_base (s := ['-', '0', 'x', '1', '0']) (neg := true) (b := 16) (ds := [1, 0])
    ⟨'x', ['1', '0'], rfl, Or.inl ⟨Or.inl rfl, rfl⟩, by
      intro c hc
      simp only [List.mem_cons, List.not_mem_nil, or_false] at hc
      rcases hc with rfl | rfl
      · exact Or.inr ⟨1, rfl, by decide⟩
      · exact Or.inr ⟨0, rfl, by decide⟩, by decide⟩ (by norm_num)
  have hd : digitsVal 16 [1, 0] = 16 := rfl
  rw [hd] at h3 h4
  refine ⟨z, h1, ?_⟩
  norm_num at h3 h4
  linarith

private theorem step6 {s : Str} {a d : Nat} (h : 6 < s.length) (hp : F192.parseUInt (s.take 6) = some d) (ha : a < 79228162514264337593543950336)
    (hb : a * 1000000 + d < B128) : F192.digitLoop s (F192.nv a) = F192.digitLoop (s.drop 6) (F192.nv (a * 1000000 + d)) := by
  rw [F192.digitLoop, if_pos h]
  rcases F192.mul_i32_nv (a := a) (k := 1000000) (lt_of_le_of_lt (Nat.le_add_right _ _) hb)
    (by norm_num) (by norm_num) with h1 | ⟨h1, -⟩
  · rw [show ((1000000 : Nat) : Int) = 1000000 from rfl] at h1
    rw [h1, pure_bind, hp, unwrapO_some, pure_bind, F192.from_nv (lt_of_le_of_lt (Nat.le_add_left _ _) hb), pure_bind, F192.add_nv hb, pure_bind]
  · exact absurd h1 (not_le.2 ha)

private theorem singleLoop_append : ∀ (s t : Str) (r : F192), F192.singleLoop (s ++ t) r = F192.singleLoop s r >>= F192.singleLoop t
  | [], t, r => by rw [List.nil_append, F192.singleLoop, pure_bind]
  | c :: s, t, r => by
    rw [List.cons_append, F192.singleLoop, F192.singleLoop]
    simp only [bind_assoc, singleLoop_append s t]

/-- A valid integer of 34 digits panics. -/
theorem C66_decimal_counterexample : Panics (F192.from_str "1298074214633706907132624082305030".toList) := by
  have hp : F192.pLoop "1298074214633706907132624082305030".toList ⟨.init, false, [], 0, []⟩ =
      .ok ⟨.readDigit, false, "1298074214633706907132624082305030".toList, 0, []⟩ := by decide +kernel
  suffices h : Panics (F192.digitLoop "1298074214633706907132624082305030".toList (F192.nv 0)) by
    obtain ⟨p, h⟩ := h
    refine ⟨p, ?_⟩
    rw [F192.from_str, hp]
    change F192.finishDec _ = _
    rw [F192.finishDec, if_neg (by simp)]
    simp only []
    rw [F192.finishNumber, if_neg (by norm_num), F192.cutExp, if_neg (by decide), pure_bind,
      List.take_of_length_le (by decide), ← F192.nv_zero, h]
    rfl
  rw [step6 (d := 129807) (by decide) (by decide +kernel) (by norm_num) (by norm_num),
    step6 (d := 421463) (by decide) (by decide +kernel) (by norm_num) (by norm_num),
    step6 (d := 370690) (by decide) (by decide +kernel) (by norm_num) (by norm_num),
    step6 (d := 713262) (by decide) (by decide +kernel) (by norm_num) (by norm_num),
    step6 (d := 408230) (by decide) (by decide +kernel) (by norm_num) (by norm_num)]
  norm_num only
  have hs : (List.drop 6 (List.drop 6 (List.drop 6 (List.drop 6 (List.drop 6 "1298074214633706907132624082305030".toList))))) =
      ['5', '0', '3'] ++ ['0'] := by decide +kernel
  rw [hs, F192.digitLoop, if_neg (by decide), singleLoop_append]
  have hv : F192.dval ['5', '0', '3'] 129807421463370690713262408230 = 129807421463370690713262408230503 := by decide +kernel
  rcases F192.singleLoop_c ['5', '0', '3'] 129807421463370690713262408230 (by decide) (by rw [hv]; norm_num) with h | ⟨-, h⟩
  · rw [h, pure_bind, hv, F192.singleLoop]
    refine F192.panics_bind ?_ _
    have hn : F192.nv 129807421463370690713262408230503 = ⟨102084710076281539039012382229531721728, 281474976710635⟩ := by decide +kernel
    rw [hn]
    refine ⟨.overflow, ?_⟩
    have hd : F192.normLoop ((102084710076281539039012382229531721728 ||| F192.SIGN_MASK) / 2 ^ 32 * 10)
      (((102084710076281539039012382229531721728 ||| F192.SIGN_MASK) &&& 4294967295) * 10) 281474976710667 = _ :=
      F192.normLoop_c 29 (by decide +kernel) (by decide +kernel)
    change (F192.normLoop ((102084710076281539039012382229531721728 ||| F192.SIGN_MASK) / 2 ^ 32 * 10)
      (((102084710076281539039012382229531721728 ||| F192.SIGN_MASK) &&& 4294967295) * 10) 281474976710667 >>= _) = _
    rw [hd]
    rfl
  · exact F192.panics_bind h _

/-- Only the first 39 digits count, and leading zeros of the fraction are among them: 10^-40 without exponent is read as zero. -/
theorem C66_decimal_zero_counterexample :
    F192.from_str "0.0000000000000000000000000000000000000001".toList = pure (.ok ZERO) ∧
    ∃ z, F192.from_str "1e-40".toList = pure (.ok z) ∧ 0 < fval z := by
  refine ⟨?_, ?_⟩
  · have hp : F192.pLoop "0.0000000000000000000000000000000000000001".toList ⟨.init, false, [], 0, []⟩ =
        .ok ⟨.readSubZero, false, List.replicate 39 '0' ++ ['1'], -40, []⟩ := by decide +kernel
    have hl := F192.digitLoop_c (List.replicate 39 '0') 0 (by decide) (by decide +kernel)
    have hv : F192.dval (List.replicate 39 '0') 0 = 0 := by decide +kernel
    rw [hv, F192.nv_zero] at hl
    rcases hl with hl | ⟨h, -⟩
    swap
    · exact absurd h (by norm_num)
    obtain ⟨m, e, hp1, -⟩ := F192.pow10_c (x := -39) (by norm_num) (by norm_num) (by norm_num)
    rw [F192.from_str, hp]
    change F192.finishDec _ = _
    rw [F192.finishDec, if_neg (by simp)]
    simp only []
    rw [F192.finishNumber, if_neg (by norm_num), F192.cutExp, if_pos (by decide)]
    have hc : i64Chk (-40 + (((List.replicate 39 '0' ++ ['1']).length : Nat) - 39 : Int)) = pure (-39) := by rfl
    rw [hc, pure_bind, show List.take 39 (List.replicate 39 '0' ++ ['1']) = List.replicate 39 '0' by decide +kernel, hl, pure_bind,
      if_pos (by decide), hp1, pure_bind, F192.nv_zero]
    rfl
  obtain ⟨z, h1, -, h3⟩ := C66_decimal_28 (s := ['1', 'e', '-', '4', '0']) (neg := false) (ds := [1]) (y := -40)
    ⟨['1'], [], ['e', '-', '4', '0'], -40, rfl, Or.inr ⟨'1', [], rfl, ⟨1, ⟨rfl, by decide⟩, by decide⟩, by simp [Digits]⟩, Or.inl rfl,
      Or.inr ⟨'e', ['-', '4', '0'], rfl, Or.inl rfl, ['4', '0'], by simp, by
        intro c hc
        simp only [List.mem_cons, List.not_mem_nil, or_false] at hc
        rcases hc with rfl | rfl
        · exact ⟨4, rfl, by decide⟩
        · exact ⟨0, rfl, by decide⟩, Or.inr (Or.inr ⟨rfl, rfl⟩)⟩, by decide, by decide⟩ (by decide) (by norm_num) (by norm_num)
  refine ⟨z, h1, ?_⟩
  have hd : digitsVal 10 [1] = 1 := rfl
  rw [hd] at h3
  unfold scaleBound at h3
  norm_num [abs_le] at h3
  linarith [h3.1]

/-- An exponent that fits into 64 bits can panic. -/
theorem C66_exponent_counterexample : F192.from_str "0.1e-9223372036854775808".toList = throw .overflow := by
  decide +kernel

/-- An exponent without digits and a base without digits are accepted. -/
theorem C66_lenient_counterexample : F192.from_str "1e".toList = F192.from_str "1".toList ∧ F192.from_str "0x".toList = pure (.ok ZERO) := by
  refine ⟨?_, by decide +kernel⟩
  rfl

end Props
end Hmath
