import Verif.Proofs.Canon
import Verif.Proofs.BigInt
import Verif.Model.Str
import Verif.Spec.Str

/-!
# Parsing of numerals
-/

namespace Hmath

/-! ### digits -/

theorem toDigit_ascii : ∀ v < 128, toDigit 16 (Char.ofNat v) = digitVal (Char.ofNat v) := by decide

theorem toLower_ascii : ∀ v < 128,
    ((Char.ofNat v).toLower = 'x' ↔ (Char.ofNat v = 'x' ∨ Char.ofNat v = 'X')) ∧
    ((Char.ofNat v).toLower = 'b' ↔ (Char.ofNat v = 'b' ∨ Char.ofNat v = 'B')) ∧
    ((Char.ofNat v).toLower = 'o' ↔ (Char.ofNat v = 'o' ∨ Char.ofNat v = 'O')) := by decide

theorem ofNat_toNat_char (c : Char) : Char.ofNat c.toNat = c := Char.ofNat_toNat c

theorem digitVal_none {c : Char} (h : 128 ≤ c.toNat) : digitVal c = none := by
  have key : ∀ l : List Char, (∀ x ∈ l, x.toNat < 128) → l.idxOf? c = none := by
    intro l hl
    rw [List.idxOf?_eq_none_iff]
    intro hc
    have := hl c hc
    omega
  unfold digitVal
  rw [key _ (by decide)]
  exact key _ (by decide)

theorem toDigit_eq (c : Char) : toDigit 16 c = digitVal c := by
  by_cases h : c.toNat < 128
  · have := toDigit_ascii _ h
    rwa [ofNat_toNat_char] at this
  · rw [digitVal_none (by omega)]
    unfold toDigit
    simp only []
    have h1 : ¬(48 ≤ c.toNat ∧ c.toNat ≤ 57) := by omega
    have h2 : ¬(97 ≤ c.toNat ∧ c.toNat ≤ 122) := by omega
    have h3 : ¬(65 ≤ c.toNat ∧ c.toNat ≤ 90) := by omega
    rw [if_neg h1, if_neg h2, if_neg h3]
    rfl

theorem toDigit_ten (c : Char) :
    toDigit 10 c = match toDigit 16 c with
      | some d => if d < 10 then some d else none
      | none => none := by
  unfold toDigit
  simp only []
  by_cases h1 : 48 ≤ c.toNat ∧ c.toNat ≤ 57
  · rw [if_pos h1, if_pos h1, if_pos (by omega), if_pos (by omega)]
    simp only []
    rw [if_pos (by omega)]
  · rw [if_neg h1, if_neg h1]
    by_cases h2 : 97 ≤ c.toNat ∧ c.toNat ≤ 122
    · rw [if_pos h2, if_pos h2, if_neg (by omega)]
      by_cases h3 : c.toNat - 87 < 16
      · rw [if_pos h3]; simp only []; rw [if_neg (by omega)]
      · rw [if_neg h3]
    · rw [if_neg h2, if_neg h2]
      by_cases h4 : 65 ≤ c.toNat ∧ c.toNat ≤ 90
      · rw [if_pos h4, if_pos h4, if_neg (by omega)]
        by_cases h3 : c.toNat - 55 < 16
        · rw [if_pos h3]; simp only []; rw [if_neg (by omega)]
        · rw [if_neg h3]
      · rw [if_neg h4, if_neg h4]; simp

theorem toLower_x (c : Char) :
    (c.toLower = 'x' ↔ (c = 'x' ∨ c = 'X')) ∧ (c.toLower = 'b' ↔ (c = 'b' ∨ c = 'B')) ∧
    (c.toLower = 'o' ↔ (c = 'o' ∨ c = 'O')) := by
  by_cases h : c.toNat < 128
  · have := toLower_ascii _ h
    rwa [ofNat_toNat_char] at this
  · have hne : ∀ d : Char, d.toNat < 128 → c ≠ d := by
      intro d hd e
      rw [e] at h; exact h hd
    have hl : c.toLower = c := by
      unfold Char.toLower
      rw [dif_neg]
      intro hu
      simp only [Char.toNat] at h
      have := hu.2
      have h2 : c.val ≤ 90 := this
      have h3 : c.val.toNat ≤ 90 := h2
      omega
    rw [hl]
    refine ⟨⟨fun e => absurd e (hne _ (by decide)), fun e => ?_⟩,
      ⟨fun e => absurd e (hne _ (by decide)), fun e => ?_⟩,
      ⟨fun e => absurd e (hne _ (by decide)), fun e => ?_⟩⟩ <;>
    · rcases e with e | e <;> exact absurd e (hne _ (by decide))

theorem digitVal_lt {c : Char} {d : Nat} (h : digitVal c = some d) : d < 16 := by
  rw [← toDigit_eq] at h
  unfold toDigit at h
  simp only [] at h
  split_ifs at h <;> simp_all

namespace UBig

/-! ### the automaton -/

/-- what `fsFinish` returns after the remaining characters -/
def loopFin (cs : Str) (s : FsmSt) : M (Except ConvErr UBig) := do
  match ← fsLoop cs s with
  | .ok st => fsFinish st
  | .error e => pure (.error e)

theorem loopFin_nil (s : FsmSt) : loopFin [] s = fsFinish s := by
  simp only [loopFin, fsLoop, pure_bind]

theorem loopFin_skip {cs : Str} {s : FsmSt} (h : s.st ≠ .init) :
    loopFin ('_' :: cs) s = loopFin cs s := by
  simp only [loopFin, fsLoop]
  rw [if_pos ⟨by trivial, h⟩]

/-- continuation after one character -/
def contFin (cs : Str) : Except ConvErr FsmSt → M (Except ConvErr UBig)
  | .ok s' => loopFin cs s'
  | .error e => pure (.error e)

theorem loopFin_step {c : Char} {cs : Str} {s : FsmSt} (h : c ≠ '_' ∨ s.st = .init)
    {r : Except ConvErr FsmSt} (hr : fsStep s c = pure r) :
    loopFin (c :: cs) s = contFin cs r := by
  unfold contFin
  simp only [loopFin, fsLoop]
  have hn : ¬(c = '_' ∧ s.st ≠ .init) := by
    rintro ⟨h1, h2⟩
    rcases h with h | h
    · exact h h1
    · exact h2 h
  rw [if_neg hn, hr]
  cases r <;> simp only [pure_bind]

theorem fsPush_eq {u buf coeff base n : Nat} (hb : 2 ≤ base) (hb' : base ≤ 16) (hbuf : buf < coeff)
    (hc : coeff ≤ 0x8000000) (hn : n < base) :
    ∃ u' buf' coeff', fsPush ⟨.readNum, buf, ofNat u, coeff, base⟩ n
        = pure ⟨.readNum, buf', ofNat u', coeff', base⟩ ∧
      buf' < coeff' ∧ coeff' ≤ 0x8000000 ∧
      u' * coeff' + buf' = (u * coeff + buf) * base + n := by
  have h1 : buf * base + n < coeff * base := by
    have : (buf + 1) * base ≤ coeff * base := Nat.mul_le_mul_right _ hbuf
    rw [Nat.add_mul] at this; omega
  have h2 : coeff * base ≤ 0x8000000 * 16 := Nat.mul_le_mul hc hb'
  simp only [fsPush]
  have e1 : u32Mul buf base = pure (buf * base) := uMul_eq (by omega)
  have e2 : u32Add (buf * base) n = pure (buf * base + n) := uAdd_eq (by omega)
  have e3 : u32Mul coeff base = pure (coeff * base) := uMul_eq (by omega)
  rw [e1]
  simp only [pure_bind]
  rw [e2]
  simp only [pure_bind]
  rw [e3]
  simp only [pure_bind]
  by_cases hk : coeff * base > 0x8000000
  · rw [if_pos hk, mul_u32_mut_c (by omega)]
    simp only [pure_bind]
    rw [add_u32_mut_c (by omega)]
    simp only [pure_bind]
    refine ⟨u * (coeff * base) + (buf * base + n), 0, 1, rfl, by omega, by omega, by ring⟩
  · rw [if_neg hk]
    exact ⟨u, buf * base + n, coeff * base, rfl, h1, by omega, by ring⟩

/-- the returned value of a parse as a `UBigInt` result -/
def toRes : Except ConvErr Nat → Except ConvErr UBig
  | .ok n => .ok (ofNat n)
  | .error e => .error e

theorem loopFin_read (base : Nat) (hb : 2 ≤ base) (hb' : base ≤ 16) (cs : Str) :
    ∀ u buf coeff, buf < coeff → coeff ≤ 0x8000000 →
    loopFin cs ⟨.readNum, buf, ofNat u, coeff, base⟩
      = pure (toRes (readDigits base (cs.filter (· ≠ '_')) (u * coeff + buf))) := by
  induction cs with
  | nil =>
    intro u buf coeff h1 h2
    rw [loopFin_nil]
    simp only [fsFinish, List.filter_nil, readDigits, toRes]
    by_cases hc : coeff > 1
    · rw [if_pos hc, mul_u32_mut_c (by omega)]
      simp only [pure_bind]
      rw [add_u32_mut_c (by omega)]
      simp only [pure_bind]
    · have e1 : coeff = 1 := by omega
      have e2 : buf = 0 := by omega
      rw [if_neg hc, e1, e2, Nat.mul_one, Nat.add_zero]
  | cons c cs ih =>
    intro u buf coeff h1 h2
    by_cases hc : c = '_'
    · rw [hc, loopFin_skip (by simp), ih u buf coeff h1 h2]
      rfl
    · have hf : (c :: cs).filter (· ≠ '_') = c :: cs.filter (· ≠ '_') := by
        rw [List.filter_cons_of_pos (by simpa using hc)]
      rw [hf, readDigits]
      cases hd : digitVal c with
      | none =>
        have hs : fsStep ⟨.readNum, buf, ofNat u, coeff, base⟩ c = pure (.error (.invalidChar c)) := by
          simp only [fsStep, fsReadNum, toDigit_eq, hd]
        rw [loopFin_step (.inl hc) hs]; rfl
      | some d =>
        simp only []
        by_cases hlt : d < base
        · obtain ⟨u', b', k', e1, e2, e3, e4⟩ := fsPush_eq (u := u) hb hb' h1 h2 hlt
          have hs : fsStep ⟨.readNum, buf, ofNat u, coeff, base⟩ c
              = pure (.ok ⟨.readNum, b', ofNat u', k', base⟩) := by
            simp only [fsStep, fsReadNum, toDigit_eq, hd]
            rw [if_pos hlt, e1]
            simp only [pure_bind]
          rw [loopFin_step (.inl hc) hs, if_pos hlt]
          simp only [contFin]
          rw [ih u' b' k' e2 e3, e4]
        · have hs : fsStep ⟨.readNum, buf, ofNat u, coeff, base⟩ c
              = pure (.error (.invalidChar c)) := by
            simp only [fsStep, fsReadNum, toDigit_eq, hd]
            rw [if_neg hlt]
          rw [loopFin_step (.inl hc) hs, if_neg hlt]; rfl

theorem loopFin_initNum (base : Nat) (hb : 2 ≤ base) (hb' : base ≤ 16) (buf coeff : Nat) (cs : Str) :
    loopFin cs ⟨.initNum, buf, zero, coeff, base⟩
      = pure (toRes (readNumeral base (cs.filter (· ≠ '_')))) := by
  induction cs with
  | nil => rw [loopFin_nil]; rfl
  | cons c cs ih =>
    by_cases hc : c = '_'
    · rw [hc, loopFin_skip (by simp), ih]; rfl
    · have hf : (c :: cs).filter (· ≠ '_') = c :: cs.filter (· ≠ '_') := by
        rw [List.filter_cons_of_pos (by simpa using hc)]
      rw [hf, readNumeral, if_neg (by simp), readDigits]
      cases hd : digitVal c with
      | none =>
        have hs : fsStep ⟨.initNum, buf, zero, coeff, base⟩ c = pure (.error (.invalidChar c)) := by
          simp only [fsStep, fsInitNum, toDigit_eq, hd]
        rw [loopFin_step (.inl hc) hs]; rfl
      | some d =>
        simp only []
        by_cases hlt : d < base
        · have hs : fsStep ⟨.initNum, buf, zero, coeff, base⟩ c
              = pure (.ok ⟨.readNum, d, ofNat 0, base, base⟩) := by
            simp only [fsStep, fsInitNum, toDigit_eq, hd]
            rw [if_pos hlt, ofNat_zero]
            rfl
          rw [loopFin_step (.inl hc) hs, if_pos hlt]
          simp only [contFin]
          rw [loopFin_read base hb hb' cs 0 d base hlt (by omega), Nat.zero_mul]
        · have hs : fsStep ⟨.initNum, buf, zero, coeff, base⟩ c
              = pure (.error (.invalidChar c)) := by
            simp only [fsStep, fsInitNum, toDigit_eq, hd]
            rw [if_neg hlt]
          rw [loopFin_step (.inl hc) hs, if_neg hlt]; rfl

/-- the part of `parseNat` after a leading `0` -/
def afterZero : Str → Except ConvErr Nat
  | [] => .ok 0
  | x :: ds =>
    if x = 'x' ∨ x = 'X' then readNumeral 16 ds
    else if x = 'b' ∨ x = 'B' then readNumeral 2 ds
    else if x = 'o' ∨ x = 'O' then readNumeral 8 ds
    else .error (.invalidChar x)

theorem loopFin_initialZero (cs : Str) :
    loopFin cs ⟨.initialZero, 0, zero, 1, 10⟩ = pure (toRes (afterZero (cs.filter (· ≠ '_')))) := by
  induction cs with
  | nil => rw [loopFin_nil]; simp only [fsFinish, List.filter_nil, afterZero, toRes, ofNat_zero]; rfl
  | cons c cs ih =>
    by_cases hc : c = '_'
    · rw [hc, loopFin_skip (by simp), ih]; rfl
    · have hf : (c :: cs).filter (· ≠ '_') = c :: cs.filter (· ≠ '_') := by
        rw [List.filter_cons_of_pos (by simpa using hc)]
      obtain ⟨tx, tb, t8⟩ := toLower_x c
      rw [hf, afterZero]
      have hs : fsStep ⟨.initialZero, 0, zero, 1, 10⟩ c
          = pure (fsInitialZero ⟨.initialZero, 0, zero, 1, 10⟩ c) := rfl
      rw [loopFin_step (.inl hc) hs]
      unfold fsInitialZero
      by_cases h1 : c.toLower = 'x'
      · rw [if_pos h1, if_pos (tx.1 h1)]
        exact loopFin_initNum 16 (by decide) (by decide) 0 1 cs
      · rw [if_neg h1, if_neg (fun h => h1 (tx.2 h))]
        by_cases h2 : c.toLower = 'b'
        · rw [if_pos h2, if_pos (tb.1 h2)]
          exact loopFin_initNum 2 (by decide) (by decide) 0 1 cs
        · rw [if_neg h2, if_neg (fun h => h2 (tb.2 h))]
          by_cases h3 : c.toLower = 'o'
          · rw [if_pos h3, if_pos (t8.1 h3)]
            exact loopFin_initNum 8 (by decide) (by decide) 0 1 cs
          · rw [if_neg h3, if_neg (fun h => h3 (t8.2 h))]
            rfl

theorem from_string_eq (s : Str) : from_string s = pure (toRes (parseNat s)) := by
  have hl : from_string s = loopFin s ⟨.init, 0, zero, 1, 10⟩ := rfl
  rw [hl]
  cases s with
  | nil => rw [loopFin_nil]; rfl
  | cons c cs =>
    have hs : fsStep ⟨.init, 0, zero, 1, 10⟩ c = pure (fsInit ⟨.init, 0, zero, 1, 10⟩ c) := rfl
    rw [loopFin_step (.inr rfl) hs]
    unfold fsInit
    rw [parseNat]
    by_cases h0 : c = '0'
    · rw [if_pos h0, if_pos h0]
      simp only [contFin]
      rw [loopFin_initialZero]
      cases cs.filter (· ≠ '_') <;> rfl
    · rw [if_neg h0, if_neg h0, toDigit_ten, toDigit_eq, readDigits]
      cases hd : digitVal c with
      | none => rfl
      | some d =>
        simp only []
        by_cases hlt : d < 10
        · rw [if_pos hlt, if_pos hlt]
          simp only [contFin]
          have := loopFin_read 10 (by decide) (by decide) cs 0 d 10 hlt (by decide)
          rw [ofNat_zero] at this
          rw [show (⟨.readNum, d, zero, 10, 10⟩ : FsmSt) = ⟨.readNum, d, [0], 10, 10⟩ from rfl, this, Nat.zero_mul]
        · rw [if_neg hlt, if_neg hlt]
          rfl

end UBig

namespace BigI

/-- the returned value of a parse as a `BigInt` result -/
def toRes : Except ConvErr Int → Except ConvErr BigI
  | .ok z => .ok (ofInt z)
  | .error e => .error e

theorem from_string_eq (s : Str) : from_string s = pure (toRes (parseInt s)) := by
  unfold from_string
  cases s with
  | nil => rfl
  | cons c cs =>
    simp only []
    by_cases hc : c = '-'
    · rw [if_pos hc, UBig.from_string_eq, hc, parseInt]
      simp only [pure_bind]
      cases parseNat cs with
      | error e => rfl
      | ok n =>
        simp only [UBig.toRes, Except.map, toRes]
        refine congrArg (fun x => pure (Except.ok x)) ?_
        rw [UBig.is_zero_c]
        unfold ofInt
        congr 1
        · simp
        · by_cases h : n = 0 <;> simp [h] <;> omega
    · rw [if_neg hc, UBig.from_string_eq]
      have : parseInt (c :: cs) = (parseNat (c :: cs)).map (fun n => (n : Int)) := by
        unfold parseInt
        split
        · simp_all
        · simp_all
        · simp_all
      rw [this]
      simp only [pure_bind]
      cases parseNat (c :: cs) with
      | error e => rfl
      | ok n =>
        simp only [UBig.toRes, Except.map, toRes]
        refine congrArg (fun x => pure (Except.ok x)) ?_
        unfold ofInt
        congr 1

end BigI
end Hmath
