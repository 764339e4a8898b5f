import Verif.Proofs.RatioLit
import Verif.Props.Str

/-!
# Strings and `Ratio` (C28)
-/

namespace Hmath
namespace Props
open Ratio

/-- the call returns the well-formed `Ratio` of the given value, not an error -/
def Parses (s : List Char) (q : ℚ) : Prop :=
  ∃ r, Ratio.from_string s = pure (.ok r) ∧ RValid r ∧ rval r = q

/-- Every literal is read exactly. -/
theorem C28_accepts {l : RatLit} (h : l.WF) (hl : l.text.length < 2 ^ 33)
    (hx : -2 ^ 31 < l.expo ∧ l.expo < 2 ^ 31) : Parses l.text l.value := by
  refine ⟨ofRat l.value, ?_, rvalid_ofRat _, rval_ofRat _⟩
  rw [from_string_text h hl, if_neg (by omega), if_neg (by omega)]

/-- exponents beyond `i32` are an error, not a wrong number -/
theorem C28_exponent_range {l : RatLit} (h : l.WF) (hl : l.text.length < 2 ^ 33)
    (hx : l.expo < -2 ^ 31 ∨ 2 ^ 31 ≤ l.expo) : Ratio.from_string l.text = pure (.error .notInRange) := by
  rw [from_string_text h hl, if_pos (by omega)]

/-- `-2^31` is an `i32`, but its absolute value is not: the parser panics on every literal
with this exponent. -/
theorem C28_min_exponent_panics {l : RatLit} (h : l.WF) (hl : l.text.length < 2 ^ 33)
    (hx : l.expo = -2 ^ 31) : Panics (Ratio.from_string l.text) := by
  refine ⟨.overflow, ?_⟩
  rw [from_string_text h hl, if_neg (by omega), if_pos (by omega)]

/-- `7.25e3` -/
example : (⟨false, ['7'], some ['2', '5'], some ('e', ['3'])⟩ : RatLit).WF where
  int := by unfold IsDec; decide
  first := .inr ⟨'7', [], rfl, by decide, by decide⟩
  frac := by rintro F ⟨⟩; unfold IsDec; decide
  under := by rintro F ⟨⟩ h; exact absurd h (by decide)
  exp := by rintro e X ⟨⟩; exact ⟨.inl rfl, 3, rfl⟩
  some := .inl (by simp)

example : (⟨false, ['7'], some ['2', '5'], some ('e', ['3'])⟩ : RatLit).text = "7.25e3".toList := by decide
example : (⟨false, ['7'], some ['2', '5'], some ('e', ['3'])⟩ : RatLit).expo = 3 := rfl
example : (⟨false, ['7'], some ['2', '5'], some ('e', ['3'])⟩ : RatLit).value = 7250 := by
  have h1 : (⟨false, ['7'], some ['2', '5'], some ('e', ['3'])⟩ : RatLit).expo = 3 := rfl
  have h2 : decVal ['7'] = 7 := by decide
  have h3 : decVal ['2', '5'] = 25 := by decide
  have h4 : decLen ['2', '5'] = 2 := by decide
  simp only [RatLit.value, RatLit.fracDigits, h1, Option.getD_some, h2, h3, h4]
  norm_num

/-- the literal `1e-2147483648` -/
def minExpLit : RatLit := ⟨false, ['1'], none, some ('e', "-2147483648".toList)⟩

theorem minExpLit_wf : minExpLit.WF where
  int := by unfold IsDec; decide
  first := .inr ⟨'1', [], rfl, by decide, by decide⟩
  frac := by rintro F ⟨⟩
  under := by rintro F ⟨⟩
  exp := by rintro e X ⟨⟩; exact ⟨.inl rfl, -2147483648, rfl⟩
  some := .inr (by simp [minExpLit])

/-- `"1e-2147483648"` panics instead of giving a number or an error -/
theorem C28_min_exponent_counterexample : Panics (Ratio.from_string "1e-2147483648".toList) := by
  have h : minExpLit.text = "1e-2147483648".toList := by decide
  rw [← h]
  exact C28_min_exponent_panics minExpLit_wf (by rw [h]; decide) rfl

/-- Nothing but these literals and integer numerals is accepted, and never with another value. -/
theorem C28_sound {s : List Char} {r : Ratio} (hl : s.length < 2 ^ 33) (h : Ratio.from_string s = pure (.ok r)) :
    RValid r ∧ ((∃ l : RatLit, l.WF ∧ l.text = s ∧ rval r = l.value ∧ -2 ^ 31 < l.expo ∧ l.expo < 2 ^ 31) ∨
      ∃ z : Int, parseInt s = .ok z ∧ rval r = z) := by
  rcases from_string_cases hl with ⟨l, hw, rfl⟩ | ⟨er, he⟩ | ⟨z, hz, he⟩
  · rw [from_string_text hw hl] at h
    by_cases h1 : -2147483648 ≤ l.expo ∧ l.expo ≤ 2147483647
    swap
    · rw [if_pos h1] at h
      have := pure_inj'.1 h; simp at this
    rw [if_neg (not_not.2 h1)] at h
    by_cases h2 : l.expo = -2147483648
    · rw [if_pos h2] at h
      exact absurd h (by rintro ⟨⟩)
    · rw [if_neg h2] at h
      have := pure_inj'.1 h
      injection this with this
      subst this
      exact ⟨rvalid_ofRat _, .inl ⟨l, hw, rfl, rval_ofRat _, by omega, by omega⟩⟩
  · rw [he] at h
    have := pure_inj'.1 h; simp at this
  · rw [he] at h
    have := pure_inj'.1 h
    injection this with this
    subst this
    exact ⟨rvalid_ofRat _, .inr ⟨z, hz, rval_ofRat _⟩⟩

/-- Every other string is reported as an error: no panic, no endless loop. -/
theorem C28_rejects {s : List Char} (hl : s.length < 2 ^ 33) (h1 : ¬ ∃ l : RatLit, l.WF ∧ l.text = s)
    (h2 : ¬ ∃ z, parseInt s = .ok z) : ∃ er, Ratio.from_string s = pure (.error er) := by
  rcases from_string_cases hl with h | h | ⟨z, hz, _⟩
  · exact absurd h h1
  · exact h
  · exact absurd ⟨z, hz⟩ h2

/-- integer numerals without the letter e, or with a `0x` prefix, give that integer -/
theorem C28_integer {s : List Char} {z : Int} (h : parseInt s = .ok z)
    (he : ('e' ∉ s ∧ 'E' ∉ s) ∨ ∃ (neg : Bool) (x : Char) (t : List Char), (x = 'x' ∨ x = 'X') ∧
      s = (if neg then ['-'] else []) ++ '0' :: x :: t) : Parses s z := by
  refine ⟨ofRat z, from_string_int h ?_, rvalid_ofRat _, rval_ofRat _⟩
  rcases he with ⟨h1, h2⟩ | ⟨neg, x, t, hx, rfl⟩
  · left
    intro c hc
    by_contra hh
    rw [Bool.not_eq_false, isE_iff] at hh
    rcases hh with rfl | rfl
    · exact h1 hc
    · exact h2 hc
  · right
    refine ⟨x, ?_, by rcases hx with rfl | rfl <;> decide⟩
    rw [gnd_sign, gnd_cons, if_pos (by simp), gnd_cons]
    rcases hx with rfl | rfl
    · rw [if_neg (by decide), if_neg (by decide)]
    · rw [if_neg (by decide), if_neg (by decide)]

example : Parses "-0xfe".toList (-254) := by
  have := C28_integer (s := "-0xfe".toList) (z := -254) rfl
    (.inr ⟨true, 'x', "fe".toList, .inl rfl, by decide⟩)
  exact_mod_cast this

example : ∃ er, Ratio.from_string ".5".toList = pure (.error er) := ⟨.noData, rfl⟩

/-- Underscores separate digits everywhere, but not before the first nonzero digit:
`"1.0_5"` is a number and `"0.0_5"` is not. -/
theorem C28_underscore_counterexample : Parses "1.0_5".toList (21 / 20) ∧
    Ratio.from_string "0.0_5".toList = pure (.error (.invalidChar '_')) := by
  refine ⟨?_, rfl⟩
  have hw : (⟨false, ['1'], some ['0', '_', '5'], none⟩ : RatLit).WF :=
    ⟨by unfold IsDec; decide, .inr ⟨'1', [], rfl, by decide, by decide⟩,
      by rintro F ⟨⟩; unfold IsDec; decide, by rintro F ⟨⟩ h; exact absurd h (by decide),
      by rintro e X ⟨⟩, .inl (by simp)⟩
  have h := C28_accepts hw (by decide) (by decide)
  have h1 : (⟨false, ['1'], some ['0', '_', '5'], none⟩ : RatLit).expo = 0 := rfl
  have h2 : decVal ['1'] = 1 := by decide
  have h3 : decVal ['0', '_', '5'] = 5 := by decide
  have h4 : decLen ['0', '_', '5'] = 2 := by decide
  have hv : (⟨false, ['1'], some ['0', '_', '5'], none⟩ : RatLit).value = 21 / 20 := by
    simp only [RatLit.value, RatLit.fracDigits, h1, Option.getD_some, h2, h3, h4]
    norm_num
  rw [hv] at h
  exact h

/-- `"0_x1e"` is an integer numeral for `BigInt` (30), but not for `Ratio`. -/
theorem C28_integer_counterexample : parseInt "0_x1e".toList = .ok 30 ∧
    Ratio.from_string "0_x1e".toList = pure (.error (.invalidChar '_')) := ⟨rfl, rfl⟩

/-- printing as a fraction in lowest terms -/
theorem C28_to_ratio_string {a : Ratio} (ha : RValid a) (hn : a.numer.mag.length ≤ 2 ^ 32)
    (hd : a.denom.mag.length ≤ 2 ^ 32) :
    Ratio.to_ratio_string a = pure (intDigits 10 [] (rval a).num ++
      if (rval a).den = 1 then [] else '/' :: Nat.toDigits 10 (rval a).den) := by
  have h1 := (C16_signed ha.numer false).1 hn
  have h2 := (C16_signed ha.denom false).1 hd
  obtain ⟨q, rfl⟩ : ∃ q, a = ofRat q := ⟨_, ha.eq_ofRat⟩
  rw [rval_ofRat]
  have e1 : ival (ofRat q).numer = q.num := by simp [ofRat]
  have e2 : ival (ofRat q).denom = q.den := by simp [ofRat]
  rw [e1] at h1
  rw [e2] at h2
  have e3 : BigI.is_one (ofRat q).denom = decide (q.den = 1) := by
    rw [ofRat]
    simp only []
    rw [BigI.is_one_c]
    exact decide_eq_decide.2 (by norm_cast)
  unfold Ratio.to_ratio_string
  rw [e3, h1, h2]
  by_cases h : q.den = 1
  · simp [h]
  · have hneg : ¬ ((q.den : Int) < 0) := by omega
    simp only [h, intDigits, hneg, decide_false, if_false, Bool.false_eq_true, pure_bind, Int.natAbs_natCast,
      List.nil_append, List.append_nil]

/-- `-5/4` -/
example : RValid ⟨⟨[4], false⟩, ⟨[5], true⟩⟩ := by decide

example : Ratio.to_ratio_string ⟨⟨[4], false⟩, ⟨[5], true⟩⟩ = pure "-5/4".toList := by
  have h := C28_to_ratio_string (a := ⟨⟨[4], false⟩, ⟨[5], true⟩⟩) (by decide) (by decide) (by decide)
  have hv : rval ⟨⟨[4], false⟩, ⟨[5], true⟩⟩ = -5 / 4 := by
    simp [rval, ival, val]
  have hn : (-5 / 4 : ℚ).num = -5 := by norm_num
  have hd : (-5 / 4 : ℚ).den = 4 := by norm_num
  rw [hv, hn, hd] at h
  rw [h]
  exact congrArg pure (by decide)

end Props
end Hmath
