import Verif.Proofs.Sci

/-!
# Properties of the string conversions
-/

namespace Hmath
namespace Props

open UBig

/-! ### auxiliary facts about `Nat.toDigits` and `readDigits` -/

theorem digitVal_digitChar : ∀ d < 16, digitVal (Nat.digitChar d) = some d := by decide

theorem digitChar_ne_underscore : ∀ d < 16, Nat.digitChar d ≠ '_' := by decide

theorem mem_toDigits {b : Nat} (hb : 1 < b) (n : Nat) :
    ∀ c ∈ Nat.toDigits b n, ∃ d < b, c = Nat.digitChar d := by
  induction n using Nat.strong_induction_on with
  | _ n ih =>
    intro c hc
    by_cases h : n < b
    · rw [Nat.toDigits_of_lt_base h, List.mem_singleton] at hc
      exact ⟨n, h, hc⟩
    · rw [Nat.toDigits_of_base_le hb (by omega), List.mem_append, List.mem_singleton] at hc
      rcases hc with hc | hc
      · exact ih _ (Nat.div_lt_self (by omega) hb) c hc
      · exact ⟨_, Nat.mod_lt _ (by omega), hc⟩

theorem readDigits_append (b : Nat) (l m : List Char) (acc : Nat) :
    readDigits b (l ++ m) acc = match readDigits b l acc with
      | .ok r => readDigits b m r
      | .error e => .error e := by
  induction l generalizing acc with
  | nil => rfl
  | cons c l ih =>
    rw [List.cons_append, readDigits, readDigits]
    cases digitVal c with
    | none => rfl
    | some d =>
      simp only []
      by_cases h : d < b
      · rw [if_pos h, if_pos h, ih]
      · rw [if_neg h, if_neg h]

theorem readDigits_toDigits {b : Nat} (hb : 1 < b) (hb' : b ≤ 16) (n : Nat) :
    readDigits b (Nat.toDigits b n) 0 = .ok n := by
  induction n using Nat.strong_induction_on with
  | _ n ih =>
    by_cases h : n < b
    · rw [Nat.toDigits_of_lt_base h, readDigits, digitVal_digitChar n (by omega)]
      simp only []
      rw [if_pos h, readDigits]; simp
    · have hm : n % b < b := Nat.mod_lt _ (by omega)
      rw [Nat.toDigits_of_base_le hb (by omega), readDigits_append,
        ih _ (Nat.div_lt_self (by omega) hb)]
      simp only []
      rw [readDigits, digitVal_digitChar _ (by omega)]
      simp only []
      rw [if_pos hm, readDigits]
      have := Nat.div_add_mod n b
      rw [Nat.mul_comm, this]

theorem filter_toDigits {b : Nat} (hb : 1 < b) (hb' : b ≤ 16) (n : Nat) :
    (Nat.toDigits b n).filter (· ≠ '_') = Nat.toDigits b n := by
  rw [List.filter_eq_self]
  intro c hc
  obtain ⟨d, hd, rfl⟩ := mem_toDigits hb n c hc
  simpa using digitChar_ne_underscore d (by omega)

theorem head_toDigits {b : Nat} (hb : 1 < b) (hb' : b ≤ 16) {n : Nat} (hn : 0 < n) :
    (Nat.toDigits b n).head? ≠ some '0' := by
  have h := trim_toDigits hb hb' n
  rw [if_neg (by omega)] at h
  cases hd : Nat.toDigits b n with
  | nil => simp
  | cons c cs =>
    rw [hd, trimZeros] at h
    intro hc
    simp only [List.head?_cons, Option.some.injEq] at hc
    rw [if_pos hc] at h
    have hlen : ∀ s : Str, (trimZeros s).length ≤ s.length := by
      intro s
      induction s with
      | nil => simp [trimZeros]
      | cons x s ih =>
        rw [trimZeros]
        split
        · simp only [List.length_cons]; omega
        · exact le_refl _
    have h1 := hlen cs
    rw [h] at h1
    simp at h1

theorem parse_dec (n : Nat) : parseNat (Nat.toDigits 10 n) = .ok n := by
  rcases Nat.eq_zero_or_pos n with h | h
  · subst h; rfl
  · have hd := head_toDigits (b := 10) (by decide) (by decide) h
    have hr := readDigits_toDigits (b := 10) (by decide) (by decide) n
    have hf := filter_toDigits (b := 10) (by decide) (by decide) n
    cases hc : Nat.toDigits 10 n with
    | nil => exact absurd hc Nat.toDigits_ne_nil
    | cons c cs =>
      rw [hc] at hd hr hf
      simp only [List.head?_cons, ne_eq, Option.some.injEq] at hd
      rw [parseNat, if_neg hd]
      have : c :: cs.filter (· ≠ '_') = c :: cs := by
        have h2 : c ≠ '_' := by
          intro e
          have hu : digitVal '_' = none := by decide
          rw [e, readDigits, hu] at hr
          simp at hr
        rwa [List.filter_cons_of_pos (by simpa using h2)] at hf
      rw [this, hr]

theorem parse_prefixed (n : Nat) :
    parseNat (['0', 'x'] ++ Nat.toDigits 16 n) = .ok n ∧
    parseNat (['0', 'o'] ++ Nat.toDigits 8 n) = .ok n ∧
    parseNat (['0', 'b'] ++ Nat.toDigits 2 n) = .ok n := by
  refine ⟨?_, ?_, ?_⟩
  · have hf := filter_toDigits (b := 16) (by decide) (by decide) n
    rw [List.cons_append, parseNat, if_pos rfl, List.singleton_append,
      List.filter_cons_of_pos (by decide), hf]
    simp only []
    rw [if_pos (by simp), readNumeral, if_neg Nat.toDigits_ne_nil]
    exact readDigits_toDigits (by decide) (by decide) n
  · have hf := filter_toDigits (b := 8) (by decide) (by decide) n
    rw [List.cons_append, parseNat, if_pos rfl, List.singleton_append,
      List.filter_cons_of_pos (by decide), hf]
    simp only []
    rw [if_neg (by decide), if_neg (by decide), if_pos (by decide), readNumeral,
      if_neg Nat.toDigits_ne_nil]
    exact readDigits_toDigits (by decide) (by decide) n
  · have hf := filter_toDigits (b := 2) (by decide) (by decide) n
    rw [List.cons_append, parseNat, if_pos rfl, List.singleton_append,
      List.filter_cons_of_pos (by decide), hf]
    simp only []
    rw [if_neg (by decide), if_pos (by decide), readNumeral, if_neg Nat.toDigits_ne_nil]
    exact readDigits_toDigits (by decide) (by decide) n

/-! ## C16 the printed digits are the standard numeral -/

/-- `to_string_dec` is the decimal numeral (numbers of up to `2^32` limbs, 16 GiB). -/
theorem C16_to_string_dec {a : UBig} (ha : Valid a) (hlen : a.length ≤ 2 ^ 32) :
    to_string_dec a = pure (Nat.toDigits 10 (val a)) :=
  to_string_dec_eq ha hlen

example : to_string_dec [0, 0, 1] = pure "18446744073709551616".toList := by
  have h := C16_to_string_dec (a := [0, 0, 1]) (by decide) (by decide)
  have e : val [0, 0, 1] = 18446744073709551616 := by decide
  rw [h, e]; exact congrArg pure (by decide)

/-- `to_string_hex` -/
theorem C16_to_string_hex {a : UBig} (ha : Valid a) (p : Bool) :
    to_string_hex a p = pure ((if p then ['0', 'x'] else []) ++ Nat.toDigits 16 (val a)) :=
  to_string_hex_eq ha p

example : to_string_hex [5, 0xabc] true = pure "0xabc00000005".toList := by
  rw [C16_to_string_hex (by decide)]; exact congrArg pure (by decide)

/-- `to_string_oct` -/
theorem C16_to_string_oct {a : UBig} (ha : Valid a) (p : Bool) :
    to_string_oct a p = pure ((if p then ['0', 'o'] else []) ++ Nat.toDigits 8 (val a)) :=
  to_string_oct_eq ha p

example : to_string_oct [5, 1] false = pure "40000000005".toList := by
  rw [C16_to_string_oct (by decide)]; exact congrArg pure (by decide)

/-- `to_string_bin` -/
theorem C16_to_string_bin {a : UBig} (ha : Valid a) (p : Bool) :
    to_string_bin a p = pure ((if p then ['0', 'b'] else []) ++ Nat.toDigits 2 (val a)) :=
  to_string_bin_eq ha p

example : to_string_bin [0] true = pure "0b0".toList := by
  rw [C16_to_string_bin (by decide)]; exact congrArg pure (by decide)

/-- The numerals of `C16_*` denote the number digit by digit, and start with `0` only
for the number zero. -/
theorem C16_numeral {b : Nat} (hb : b = 2 ∨ b = 8 ∨ b = 10 ∨ b = 16) (n : Nat) :
    readNumeral b (Nat.toDigits b n) = .ok n ∧
    (n ≠ 0 → (Nat.toDigits b n).head? ≠ some '0') ∧ Nat.toDigits b 0 = ['0'] := by
  have h1 : 1 < b := by omega
  have h2 : b ≤ 16 := by omega
  refine ⟨?_, fun h => head_toDigits h1 h2 (by omega), Nat.toDigits_zero _⟩
  rw [readNumeral, if_neg Nat.toDigits_ne_nil]
  exact readDigits_toDigits h1 h2 n

example : readNumeral 16 (Nat.toDigits 16 48879) = .ok 48879 := (C16_numeral (by decide) _).1

theorem withSign_eq {x : BigI} (hx : IValid x) (s : Str) :
    BigI.withSign x s = (if ival x < 0 then ['-'] else []) ++ s := by
  have e := hx.eq_ofInt
  have : BigI.is_neg x = decide (ival x < 0) := by
    conv_lhs => rw [e]
    rfl
  rw [BigI.withSign, this]
  by_cases h : ival x < 0 <;> simp [h]

theorem val_mag {x : BigI} : val x.mag = (ival x).natAbs := by
  unfold ival
  split <;> simp

/-- the signed printers -/
theorem C16_signed {x : BigI} (hx : IValid x) (p : Bool) :
    (x.mag.length ≤ 2 ^ 32 → BigI.to_string_dec x = pure (intDigits 10 [] (ival x))) ∧
    BigI.to_string_hex x p = pure (intDigits 16 (if p then ['0', 'x'] else []) (ival x)) ∧
    BigI.to_string_oct x p = pure (intDigits 8 (if p then ['0', 'o'] else []) (ival x)) ∧
    BigI.to_string_bin x p = pure (intDigits 2 (if p then ['0', 'b'] else []) (ival x)) := by
  refine ⟨fun hl => ?_, ?_, ?_, ?_⟩
  · unfold BigI.to_string_dec
    rw [C16_to_string_dec hx.mag hl]
    simp only [pure_bind]
    rw [withSign_eq hx, val_mag, intDigits, List.append_nil]
  · unfold BigI.to_string_hex
    rw [C16_to_string_hex hx.mag p]
    simp only [pure_bind]
    rw [withSign_eq hx, val_mag, intDigits, List.append_assoc]
  · unfold BigI.to_string_oct
    rw [C16_to_string_oct hx.mag p]
    simp only [pure_bind]
    rw [withSign_eq hx, val_mag, intDigits, List.append_assoc]
  · unfold BigI.to_string_bin
    rw [C16_to_string_bin hx.mag p]
    simp only [pure_bind]
    rw [withSign_eq hx, val_mag, intDigits, List.append_assoc]

example : BigI.to_string_hex ⟨[255], true⟩ true = pure "-0xff".toList := by
  rw [(C16_signed (by decide) true).2.1]; exact congrArg pure (by decide)

/-! ## C17 the parser -/

/-- `from_string` accepts exactly the numerals of the grammar `parseNat`, returns the
number they denote as a well-formed `UBigInt`, returns an error otherwise, and
never panics. -/
theorem C17_from_string (s : List Char) : ComputesE (UBig.from_string s) (parseNat s) := by
  rw [UBig.from_string_eq]
  cases parseNat s with
  | ok n => exact ⟨_, rfl, valid_ofNat _, val_ofNat _⟩
  | error e => rfl

example : ∃ c, UBig.from_string "0xFFff_ffff_1".toList = pure (.ok c) ∧ Valid c ∧
    val c = 0xffffffff1 := C17_from_string "0xFFff_ffff_1".toList

/-- signed strings -/
theorem C17_from_string_signed (s : List Char) :
    ComputesIE (BigI.from_string s) (parseInt s) := by
  rw [BigI.from_string_eq]
  cases parseInt s with
  | ok n => exact ⟨_, rfl, ivalid_ofInt _, ival_ofInt _⟩
  | error e => rfl

example : ∃ c, BigI.from_string "-12_345".toList = pure (.ok c) ∧ IValid c ∧ ival c = -12345 :=
  C17_from_string_signed "-12_345".toList

/-- Decimal numerals without leading zero, with underscores after the first digit. -/
theorem C17_accepts_decimal (n : Nat) (hn : 0 < n) (c : Char) (s : List Char) (hc : c ≠ '_')
    (h : (c :: s).filter (· ≠ '_') = Nat.toDigits 10 n) :
    ComputesE (UBig.from_string (c :: s)) (.ok n) := by
  have h1 := C17_from_string (c :: s)
  have hf : (c :: s).filter (· ≠ '_') = c :: s.filter (· ≠ '_') :=
    List.filter_cons_of_pos (by simpa using hc)
  have hd := head_toDigits (b := 10) (by decide) (by decide) hn
  rw [← h, hf] at hd
  simp only [List.head?_cons, ne_eq, Option.some.injEq] at hd
  rw [parseNat, if_neg hd, ← hf, h, readDigits_toDigits (by decide) (by decide)] at h1
  exact h1

example : ComputesE (UBig.from_string "1_2__3".toList) (.ok 123) :=
  C17_accepts_decimal 123 (by decide) '1' "_2__3".toList (by decide) (by decide)

/-- Rejected: the empty string, a character that is no digit of the base, and a decimal
digit after a leading zero. -/
theorem C17_rejects (s t : List Char) (c : Char) :
    UBig.from_string [] = pure (.error .noData) ∧
    (digitVal c = none → c ≠ '_' → (∀ d ∈ s, digitVal d ≠ none) →
      s ≠ [] → s.head? ≠ some '0' → (∀ d ∈ s, ∀ v, digitVal d = some v → v < 10) →
      UBig.from_string (s ++ c :: t) = pure (.error (.invalidChar c))) ∧
    (∀ d, digitVal c = some d → d < 10 →
      UBig.from_string ('0' :: c :: t) = pure (.error (.invalidChar c))) := by
  refine ⟨C17_from_string [], ?_, ?_⟩
  · intro hc hu hs hne hz hlt
    have h1 := C17_from_string (s ++ c :: t)
    cases s with
    | nil => exact absurd rfl hne
    | cons x xs =>
      simp only [List.head?_cons, ne_eq, Option.some.injEq] at hz
      have hxs : ∀ d ∈ x :: xs, d ≠ '_' := by
        intro d hd e
        exact hs d hd (by rw [e]; decide)
      have hread : ∀ (l : List Char) (r : List Char) (acc : Nat), (∀ d ∈ l, digitVal d ≠ none) →
          (∀ d ∈ l, ∀ v, digitVal d = some v → v < 10) →
          readDigits 10 (l ++ c :: r) acc = .error (.invalidChar c) := by
        intro l r
        induction l with
        | nil => intro acc _ _; simp only [List.nil_append, readDigits, hc]
        | cons y l ih =>
          intro acc h2 h3
          rw [List.cons_append, readDigits]
          cases hy : digitVal y with
          | none => exact absurd hy (h2 y (by simp))
          | some v =>
            simp only []
            rw [if_pos (h3 y (by simp) v hy)]
            exact ih _ (fun d hd => h2 d (by simp [hd])) (fun d hd => h3 d (by simp [hd]))
      have hp : parseNat (x :: xs ++ c :: t) = .error (.invalidChar c) := by
        rw [List.cons_append, parseNat, if_neg hz, List.filter_append,
          List.filter_eq_self.2 (fun d hd => by simpa using hxs d (by simp [hd])),
          List.filter_cons_of_pos (by simpa using hu), ← List.cons_append]
        exact hread _ _ _ hs hlt
      rw [hp] at h1
      exact h1
  · intro d hd hlt
    have h1 := C17_from_string ('0' :: c :: t)
    have hu : c ≠ '_' := by rintro rfl; revert hd; decide +revert
    have hl : ∀ v : Char, digitVal v = none ∨ (∃ w, digitVal v = some w ∧ 10 ≤ w) → c ≠ v := by
      rintro v hv rfl
      rcases hv with hv | ⟨w, hv, hw⟩
      · rw [hd] at hv; simp at hv
      · rw [hd] at hv; simp only [Option.some.injEq] at hv; omega
    have hp : parseNat ('0' :: c :: t) = .error (.invalidChar c) := by
      rw [parseNat, if_pos rfl, List.filter_cons_of_pos (by simpa using hu)]
      simp only []
      rw [if_neg, if_neg, if_neg]
      · rintro (h | h)
        · exact hl _ (.inl (by decide)) h
        · exact hl _ (.inl (by decide)) h
      · rintro (h | h)
        · exact hl _ (.inr ⟨11, by decide, by decide⟩) h
        · exact hl _ (.inr ⟨11, by decide, by decide⟩) h
      · rintro (h | h)
        · exact hl _ (.inl (by decide)) h
        · exact hl _ (.inl (by decide)) h
    rw [hp] at h1
    exact h1

example : UBig.from_string "007".toList = pure (.error (.invalidChar '0')) :=
  (C17_rejects [] "7".toList '0').2.2 0 (by decide) (by decide)

/-! ## C15 printing then parsing -/

/-- Decimal round trip. -/
theorem C15_dec {a : UBig} (ha : Valid a) (hlen : a.length ≤ 2 ^ 32) :
    ∃ s, to_string_dec a = pure s ∧ UBig.from_string s = pure (.ok a) := by
  refine ⟨_, C16_to_string_dec ha hlen, ?_⟩
  rw [UBig.from_string_eq, parse_dec]
  exact congrArg (fun x => pure (Except.ok x)) ha.eq_ofNat.symm

example : ∃ s, to_string_dec [7, 9, 1] = pure s ∧ UBig.from_string s = pure (.ok [7, 9, 1]) :=
  C15_dec (by decide) (by decide)

/-- Hexadecimal, octal and binary round trips (with prefix). -/
theorem C15_hex_oct_bin {a : UBig} (ha : Valid a) :
    (∃ s, to_string_hex a true = pure s ∧ UBig.from_string s = pure (.ok a)) ∧
    (∃ s, to_string_oct a true = pure s ∧ UBig.from_string s = pure (.ok a)) ∧
    (∃ s, to_string_bin a true = pure s ∧ UBig.from_string s = pure (.ok a)) := by
  have hp := parse_prefixed (val a)
  refine ⟨⟨_, to_string_hex_eq ha true, ?_⟩, ⟨_, to_string_oct_eq ha true, ?_⟩,
    ⟨_, to_string_bin_eq ha true, ?_⟩⟩
  · rw [UBig.from_string_eq, if_pos rfl, hp.1]
    exact congrArg (fun x => pure (Except.ok x)) ha.eq_ofNat.symm
  · rw [UBig.from_string_eq, if_pos rfl, hp.2.1]
    exact congrArg (fun x => pure (Except.ok x)) ha.eq_ofNat.symm
  · rw [UBig.from_string_eq, if_pos rfl, hp.2.2]
    exact congrArg (fun x => pure (Except.ok x)) ha.eq_ofNat.symm

example : ∃ s, to_string_oct [7, 9, 1] true = pure s ∧ UBig.from_string s = pure (.ok [7, 9, 1]) :=
  (C15_hex_oct_bin (by decide)).2.1

theorem parse_int {b : Nat} {pre : List Char} {z : Int} (hb : 1 < b) (hb' : b ≤ 16)
    (hpre : ∀ c ∈ pre, c ≠ '-')
    (h : ∀ n, parseNat (pre ++ Nat.toDigits b n) = .ok n) :
    parseInt (intDigits b pre z) = .ok z := by
  unfold intDigits
  by_cases hz : z < 0
  · rw [if_pos hz, List.append_assoc, List.singleton_append, parseInt, h]
    exact congrArg Except.ok (by simp only []; omega)
  · rw [if_neg hz, List.nil_append]
    have hn := h z.natAbs
    cases hc : pre ++ Nat.toDigits b z.natAbs with
    | nil =>
      rw [List.append_eq_nil_iff] at hc
      exact absurd hc.2 Nat.toDigits_ne_nil
    | cons c cs =>
      rw [hc] at hn
      have hne : c ≠ '-' := by
        have hm : c ∈ pre ++ Nat.toDigits b z.natAbs := by rw [hc]; simp
        rcases List.mem_append.1 hm with hm | hm
        · exact hpre c hm
        · obtain ⟨d, hd, rfl⟩ := mem_toDigits hb _ c hm
          have : ∀ d < 16, Nat.digitChar d ≠ '-' := by decide
          exact this d (by omega)
      have : parseInt (c :: cs) = (parseNat (c :: cs)).map (fun n => (n : Int)) := by
        unfold parseInt
        split <;> simp_all
      rw [this, hn]
      exact congrArg Except.ok (by simp only []; omega)

/-- Round trips of signed numbers. -/
theorem C15_signed {x : BigI} (hx : IValid x) :
    (x.mag.length ≤ 2 ^ 32 →
      ∃ s, BigI.to_string_dec x = pure s ∧ BigI.from_string s = pure (.ok x)) ∧
    (∃ s, BigI.to_string_hex x true = pure s ∧ BigI.from_string s = pure (.ok x)) ∧
    (∃ s, BigI.to_string_oct x true = pure s ∧ BigI.from_string s = pure (.ok x)) ∧
    (∃ s, BigI.to_string_bin x true = pure s ∧ BigI.from_string s = pure (.ok x)) := by
  obtain ⟨h1, h2, h3, h4⟩ := C16_signed hx true
  refine ⟨fun hl => ⟨_, h1 hl, ?_⟩, ⟨_, h2, ?_⟩, ⟨_, h3, ?_⟩, ⟨_, h4, ?_⟩⟩
  · rw [BigI.from_string_eq, parse_int (by decide) (by decide) (by simp)
      (fun n => by rw [List.nil_append]; exact parse_dec n)]
    exact congrArg (fun x => pure (Except.ok x)) hx.eq_ofInt.symm
  · rw [BigI.from_string_eq, if_pos rfl, parse_int (by decide) (by decide) (by decide)
      (fun n => (parse_prefixed n).1)]
    exact congrArg (fun x => pure (Except.ok x)) hx.eq_ofInt.symm
  · rw [BigI.from_string_eq, if_pos rfl, parse_int (by decide) (by decide) (by decide)
      (fun n => (parse_prefixed n).2.1)]
    exact congrArg (fun x => pure (Except.ok x)) hx.eq_ofInt.symm
  · rw [BigI.from_string_eq, if_pos rfl, parse_int (by decide) (by decide) (by decide)
      (fun n => (parse_prefixed n).2.2)]
    exact congrArg (fun x => pure (Except.ok x)) hx.eq_ofInt.symm

example : ∃ s, BigI.to_string_dec ⟨[0, 1], true⟩ = pure s ∧
    BigI.from_string s = pure (.ok ⟨[0, 1], true⟩) := (C15_signed (by decide)).1 (by decide)

/-! ## C48 scientific notation -/

/-- `to_scientific_notation` prints the leading digits, cut off (not rounded), without
trailing zeros, and the exact exponent.  Up to 11 digits are available for every number;
a number below `2^64` is never cut short. -/
theorem C48_to_scientific_notation {a : UBig} (ha : Valid a) (k : Nat) (hk : 1 ≤ k)
    (hn : val a ≠ 0) (h : k ≤ 11 ∨ val a < 2 ^ 64) :
    to_scientific_notation a k = pure (sciSpec (val a) k) :=
  sci_eq ha k hk (by omega) h

example : to_scientific_notation [0, 0, 0, 1] 5 = pure "7.9228e28".toList := by
  rw [C48_to_scientific_notation (by decide) 5 (by decide) (by decide) (by decide)]
  have : Nat.log 10 (val [0, 0, 0, 1]) = 28 :=
    (Nat.log_eq_iff (.inl (by decide))).2 ⟨by decide, by decide⟩
  unfold sciSpec
  rw [this]
  exact congrArg pure (by decide)

/-- Zero. -/
theorem C48_zero (k : Nat) : to_scientific_notation [0] k = pure "0e0".toList := by
  have h1 : sciBig [0] 0 = pure ([0], 0) := by rw [sciBig]; rfl
  have h2 : sciSmall [0] 0 = pure ([0], 0) := by rw [sciSmall]; rfl
  have h3 : sciOf 0 k = (['0'], 0) := by
    unfold sciOf
    rw [sciLoop]
    rfl
  unfold to_scientific_notation
  rw [h1]
  simp only [pure_bind]
  rw [h2]
  simp only [pure_bind, to_u64, idx, unwrapR]
  simp [h3]

end Props
end Hmath
