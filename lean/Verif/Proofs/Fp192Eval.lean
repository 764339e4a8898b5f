import Verif.Proofs.Fp192Trigo

/-!
# Evaluating F192 functions in the kernel

Versions of `add`, `sub` and `div` that reduce by computation; where one of them returns a number, the model
function returns the same number.
-/

namespace Hmath
namespace F192

/-- where `a` returns or panics, `b` does the same -/
def Le {α : Type} (a b : M α) : Prop := ∀ r, a = some r → b = some r

/-- no answer -/
def unk {α : Type} : M α := (Option.none : Option (Except Panic α))

theorem Le.refl {α : Type} (a : M α) : Le a a := fun _ h => h

theorem Le.unk {α : Type} (b : M α) : Le unk b := fun z h => by cases h

theorem Le.ret {α : Type} {a b : M α} (h : Le a b) {z : α} (hz : a = pure z) : b = pure z := h _ hz

theorem Le.panics {α : Type} {a b : M α} (h : Le a b) {p : Panic} (hz : a = throw p) : b = throw p := h _ hz

theorem Le.bind {α β : Type} {a a' : M α} {f f' : α → M β} (h : Le a a') (hf : ∀ x, Le (f x) (f' x)) :
    Le (a >>= f) (a' >>= f') := by
  intro z hz
  match a, h, hz with
  | .none, _, hz => cases hz
  | .some (.error p), h, hz => rw [h _ rfl]; exact hz
  | .some (.ok x), h, hz =>
    rw [h _ rfl]
    exact hf x z hz

theorem Le.bind' {α β : Type} {a : M α} {f f' : α → M β} (hf : ∀ x, Le (f x) (f' x)) :
    Le (a >>= f) (a >>= f') := Le.bind (Le.refl a) hf

theorem Le.ite {α : Type} {c : Prop} [Decidable c] {a a' b b' : M α} (h : Le a a') (h' : Le b b') :
    Le (if c then a else b) (if c then a' else b') := by
  split
  · exact h
  · exact h'

/-- the exponent field as `to_ratio` takes it -/
def wrapE (e : Nat) : Nat :=
  if e < 281474976710656 then 281474976710656 - (281474976710656 - e) % 4294967296
  else 281474976710656 + (e - 281474976710656) % 4294967296

theorem wrap_lo (e : Nat) : 281474976710656 < wrapE e + 4294967296 := by rw [wrapE]; split <;> omega
theorem wrap_hi (e : Nat) : wrapE e < 281474976710656 + 4294967296 := by rw [wrapE]; split <;> omega

theorem to_ratio_wrap {s : Bool} {m e : Nat} (h : Nrm m) (h0 : ¬Z s m e) (h2 : e < 9223372036854775808) :
    to_ratio (mk' s m e) = pure (ofRat (sgn s * mg m (wrapE e))) := by
  rw [to_ratio, is_zero_mk h, if_neg (by simpa [Z] using h0), or_mk h, expI64_c (by omega)]
  dsimp only
  rw [pure_bind, absU32, if_neg (by omega), pure_bind, BigI.one_c, BigI.mul_pow2_c, pure_bind, one_mul, is_neg_mk h]
  have : ratioScale (Ratio.from_u128 m) (ofInt (2 ^ (((e : Int) - 281474976710656).natAbs % 4294967296))) ((e : Int) - 281474976710656) =
      pure (ofRat (mg m (wrapE e))) := by
    have hs : ((e : Int) - 281474976710656).natAbs % 4294967296 = ((wrapE e : Int) - 281474976710656).natAbs := by
      rw [wrapE]; split <;> omega
    by_cases hc : (e : Int) - 281474976710656 < 0 ∧ ¬(wrapE e : Int) - 281474976710656 < 0
    · have hw : wrapE e = 281474976710656 := by
        have := hc.2
        rw [wrapE, if_pos (by omega)] at this ⊢
        omega
      rw [ratioScale, if_pos hc.1, hs, hw, rfrom_u128 h.2, mg_eq]
      have hu : ulp 281474976710656 = 1 := by rw [ulp]; norm_num
      rw [hu, mul_one, show ((281474976710656 : Nat) : Int) - 281474976710656 = 0 by norm_num, Int.natAbs_zero, pow_zero,
        Ratio.div_bi_mut_c _ (by norm_num)]
      norm_num
    · refine Eq.trans ?_ (scale_pow (e := (wrapE e : Int) - 281474976710656) hs h.2)
      rw [ratioScale, ratioScale]
      have : ((e : Int) - 281474976710656 < 0) ↔ ((wrapE e : Int) - 281474976710656 < 0) := by
        rw [wrapE] at hc ⊢
        split at hc <;> split <;> omega
      by_cases hd : (e : Int) - 281474976710656 < 0
      · rw [if_pos hd, if_pos (this.1 hd)]
      · rw [if_neg hd, if_neg (fun h => hd (this.2 h))]
  rw [this, pure_bind]
  cases s
  · rw [sgn_false, one_mul]; rfl
  · rw [if_pos rfl, Ratio.negate_mut_c, sgn_true, neg_one_mul]

theorem sub_wrap {s : Bool} {m₁ e₁ m₂ e₂ : Nat} (h1 : Nrm m₁) (h2 : Nrm m₂) (z1 : 0 < e₁) (z2 : 0 < e₂)
    (b1 : e₁ < 9223372036854775808) (b2 : e₂ < 9223372036854775808) :
    sub (mk' s m₁ e₁) (mk' s m₂ e₂) = from_ratio (ofRat (sgn s * mg m₁ (wrapE e₁) - sgn s * mg m₂ (wrapE e₂))) := by
  rw [sub, is_neg_mk h1, is_neg_mk h2, is_zero_mk h1, is_zero_mk h2, if_neg (by simp),
    if_neg (by simpa [Z] using nz_exp (s := s) (m := m₁) z1), if_neg (by simpa [Z] using nz_exp (s := s) (m := m₂) z2),
    to_ratio_wrap h1 (nz_exp z1) b1, pure_bind, to_ratio_wrap h2 (nz_exp z2) b2, pure_bind, Ratio.sub_c, pure_bind]

/-- the difference of two numbers of the same sign, rounded as the program does it -/
def subCore (s : Bool) (m₁ f₁ m₂ f₂ : Nat) : M F192 :=
  if S127 ≤ m₁ ∧ m₁ < B128 ∧ S127 ≤ m₂ ∧ m₂ < B128 ∧ 0 < f₁ ∧ 0 < f₂ ∧ f₁ < 9223372036854775808 ∧ f₂ < 9223372036854775808 then
    let e₁ := wrapE f₁
    let e₂ := wrapE f₂
    let e₀ := min e₁ e₂
    let a := m₁ * 2 ^ (e₁ - e₀)
    let b := m₂ * 2 ^ (e₂ - e₀)
    let d := if a < b then b - a else a - b
    let ng := if a < b then !s else s
    if d = 0 then pure ZERO
    else
      let l := Nat.log2 d
      if l ≤ 127 then pure (mk' ng (d * 2 ^ (127 - l)) (e₀ - (127 - l)))
      else
        let k := l - 127
        let n := (d + 2 ^ (k - 1)) / 2 ^ k
        if e₀ + k < B64 then pure (if n = B128 then mk' true S127 (e₀ + k) else mk' ng n (e₀ + k))
        else unk
  else unk

theorem from_ratio_uniq {v : ℚ} {n : ℚ} {e : Nat} (h1 : Q127 ≤ n) (h2 : n < Q128) (he : e < B64) (h : |v| = n * ulp e) :
    from_ratio (ofRat v) = pure (roundMk (decide (v < 0)) n e) := by
  have hu := ulp_pos e
  have u0 := ulp_mono (Nat.zero_le e)
  have u0' := ulp_pos 0
  have u1 := ulp_mono (show e ≤ 18446744073709551615 by omega)
  have h0 : v ≠ 0 := by
    rintro rfl
    rw [_root_.abs_zero] at h
    nlinarith
  obtain ⟨n', e', n1, n2, n3, n4, n5⟩ := from_ratio_c h0 (by rw [h]; nlinarith) (by rw [h]; nlinarith)
  have hu' := ulp_pos e'
  have hee : e' = e := by
    rcases lt_trichotomy e' e with g | g | g
    · have := ulp_mono (show e' + 1 ≤ e by omega)
      rw [ulp_succ] at this
      nlinarith
    · exact g
    · have := ulp_mono (show e + 1 ≤ e' by omega)
      rw [ulp_succ] at this
      nlinarith
  subst hee
  have : n' = n := mul_right_cancel₀ hu.ne' (n4.symm.trans h)
  rw [n5, this]

theorem subCore_ret (s : Bool) (m₁ f₁ m₂ f₂ : Nat) : ∀ z, subCore s m₁ f₁ m₂ f₂ = pure z → sub (mk' s m₁ f₁) (mk' s m₂ f₂) = pure z := by
  intro z hz
  rw [subCore] at hz
  split at hz
  case isFalse => cases hz
  case isTrue hc =>
  obtain ⟨c1, c2, c3, c4, c5, c6, c7, c8⟩ := hc
  rw [sub_wrap ⟨c1, c2⟩ ⟨c3, c4⟩ c5 c6 c7 c8]
  dsimp only at hz
  have w1 := wrap_lo f₁
  have w2 := wrap_hi f₁
  have w3 := wrap_lo f₂
  have w4 := wrap_hi f₂
  generalize wrapE f₁ = e₁ at *
  generalize wrapE f₂ = e₂ at *
  generalize he₀ : min e₁ e₂ = e₀ at hz
  have l1 : e₀ ≤ e₁ := by omega
  have l2 : e₀ ≤ e₂ := by omega
  have hl0 : 281474976710656 < e₀ + 4294967296 := by omega
  have hl3 : e₀ < 281474976710656 + 4294967296 := by omega
  have g1 : mg m₁ e₁ = ((m₁ * 2 ^ (e₁ - e₀) : Nat) : ℚ) * ulp e₀ := by
    obtain ⟨k, rfl⟩ := Nat.exists_eq_add_of_le l1
    rw [mg_eq, ulp_add, Nat.add_sub_cancel_left]; push_cast; ring
  have g2 : mg m₂ e₂ = ((m₂ * 2 ^ (e₂ - e₀) : Nat) : ℚ) * ulp e₀ := by
    obtain ⟨k, rfl⟩ := Nat.exists_eq_add_of_le l2
    rw [mg_eq, ulp_add, Nat.add_sub_cancel_left]; push_cast; ring
  generalize m₁ * 2 ^ (e₁ - e₀) = a at *
  generalize m₂ * 2 ^ (e₂ - e₀) = b at *
  rw [g1, g2]
  have hu := ulp_pos e₀
  generalize hd : (if a < b then b - a else a - b) = d at hz
  generalize hng : (if a < b then !s else s) = ng at hz
  have hab : |sgn s * ((a : ℚ) * ulp e₀) - sgn s * ((b : ℚ) * ulp e₀)| = d * ulp e₀ := by
    rw [← mul_sub, abs_mul, abs_sgn, one_mul, ← sub_mul, abs_mul, abs_of_pos hu]
    congr 1
    subst hd
    split
    case isTrue h =>
      rw [Nat.cast_sub h.le, abs_sub_comm, abs_of_pos]
      exact sub_pos.2 (by exact_mod_cast h)
    case isFalse h =>
      rw [Nat.cast_sub (by omega), abs_of_nonneg]
      exact sub_nonneg.2 (by exact_mod_cast (not_lt.1 h))
  split at hz
  case isTrue h0 =>
    rw [h0, Nat.cast_zero, zero_mul, abs_eq_zero] at hab
    rw [hab, from_ratio_zero]; exact hz
  case isFalse h0 =>
  have hsgn : decide (sgn s * ((a : ℚ) * ulp e₀) - sgn s * ((b : ℚ) * ulp e₀) < 0) = ng := by
    have hne : a ≠ b := by
      rintro rfl
      rw [if_neg (lt_irrefl _)] at hd
      omega
    subst hng
    by_cases h : a < b
    · have : (a : ℚ) < b := by exact_mod_cast h
      have hm := mul_lt_mul_of_pos_right this hu
      rw [if_pos h]
      cases s
      · rw [sgn_false, Bool.not_false, decide_eq_true_eq]; linarith only [hm]
      · rw [sgn_true, Bool.not_true, decide_eq_false_iff_not, not_lt]; linarith only [hm]
    · have : (b : ℚ) < a := by exact_mod_cast (show b < a by omega)
      have hm := mul_lt_mul_of_pos_right this hu
      rw [if_neg h]
      cases s
      · rw [sgn_false, decide_eq_false_iff_not, not_lt]; linarith only [hm]
      · rw [sgn_true, decide_eq_true_eq]; linarith only [hm]
  generalize sgn s * ((a : ℚ) * ulp e₀) - sgn s * ((b : ℚ) * ulp e₀) = v at *
  have lg1 : 2 ^ Nat.log2 d ≤ d := Nat.log2_self_le h0
  have lg2 : d < 2 ^ (Nat.log2 d + 1) := Nat.lt_log2_self
  generalize Nat.log2 d = l at *
  split at hz
  case isTrue hl =>
    obtain ⟨k, hk⟩ : ∃ k, 127 = l + k := ⟨127 - l, by omega⟩
    rw [show 127 - l = k by omega] at hz
    have hn1 : S127 ≤ d * 2 ^ k := by
      rw [show S127 = 2 ^ (l + k) by rw [← hk]; norm_num, pow_add]
      exact Nat.mul_le_mul_right _ lg1
    have hn2 : d * 2 ^ k < B128 := by
      rw [show B128 = 2 ^ (l + 1 + k) by rw [show l + 1 + k = 128 by omega]; norm_num, pow_add]
      exact Nat.mul_lt_mul_of_pos_right lg2 (by positivity)
    rw [from_ratio_uniq (n := ((d * 2 ^ k : Nat) : ℚ)) (e := e₀ - k) (by exact_mod_cast hn1) (by exact_mod_cast hn2) (by omega) (by
      obtain ⟨e, rfl⟩ := Nat.exists_eq_add_of_le (show k ≤ e₀ by omega)
      rw [hab, Nat.add_sub_cancel_left, add_comm k e, ulp_add]; push_cast; ring), hsgn]
    rw [← hz, roundMk]
    have : ⌊((d * 2 ^ k : Nat) : ℚ) + 1 / 2⌋ = ((d * 2 ^ k : Nat) : Int) := by
      rw [Int.floor_eq_iff]; constructor <;> push_cast <;> linarith
    rw [this, if_neg (by omega), Int.toNat_natCast]
  case isFalse hl =>
    obtain ⟨k, hk⟩ : ∃ k, l = 127 + k := ⟨l - 127, by omega⟩
    rw [show l - 127 = k by omega] at hz
    have hk0 : 0 < k := by omega
    split at hz
    case isFalse => cases hz
    case isTrue hB =>
    have hp : (0 : ℚ) < 2 ^ k := by positivity
    have lq1 : (2 : ℚ) ^ 127 * 2 ^ k ≤ d := by rw [← pow_add, ← hk]; exact_mod_cast lg1
    have lq2 : (d : ℚ) < 2 ^ 128 * 2 ^ k := by rw [← pow_add, show 128 + k = l + 1 by omega]; exact_mod_cast lg2
    rw [from_ratio_uniq (n := (d : ℚ) / 2 ^ k) (e := e₀ + k) (by rw [le_div_iff₀ hp]; norm_num at lq1 ⊢; exact lq1)
      (by rw [div_lt_iff₀ hp]; norm_num at lq2 ⊢; exact lq2) hB (by
      rw [hab, ulp_add]; field_simp), hsgn]
    rw [← hz, roundMk]
    have : ⌊(d : ℚ) / 2 ^ k + 1 / 2⌋ = (((d + 2 ^ (k - 1)) / 2 ^ k : Nat) : Int) := by
      obtain ⟨j, rfl⟩ : ∃ j, k = j + 1 := ⟨k - 1, by omega⟩
      rw [Nat.add_sub_cancel]
      have : (d : ℚ) / 2 ^ (j + 1) + 1 / 2 = ((d + 2 ^ j : Nat) : ℚ) / ((2 ^ (j + 1) : Nat) : ℚ) := by
        push_cast
        rw [pow_succ]; field_simp
      rw [this, Rat.floor_natCast_div_natCast, Int.natCast_div]
    rw [this]
    congr 1
    by_cases hc : (d + 2 ^ (k - 1)) / 2 ^ k = B128
    · rw [if_pos hc, if_pos (by exact_mod_cast hc)]
    · rw [if_neg hc, if_neg (by exact_mod_cast hc), Int.toNat_natCast]

theorem subCore_no (s : Bool) (m₁ f₁ m₂ f₂ : Nat) (p : Panic) : subCore s m₁ f₁ m₂ f₂ ≠ throw p := by
  rw [subCore]
  split
  · dsimp only
    split_ifs <;> exact fun h => by cases h
  · exact fun h => by cases h

theorem subCore_c (s : Bool) (m₁ f₁ m₂ f₂ : Nat) : Le (subCore s m₁ f₁ m₂ f₂) (sub (mk' s m₁ f₁) (mk' s m₂ f₂)) := by
  rintro (p | z) hz
  · exact absurd hz (subCore_no s m₁ f₁ m₂ f₂ p)
  · exact subCore_ret s m₁ f₁ m₂ f₂ z hz

/-- `sub` of two numbers of the same sign -/
def subS (x y : F192) : M F192 :=
  if is_zero x then pure (neg y)
  else if is_zero y then pure x
  else if x = mk' (is_neg x) (x.digits ||| S127) x.exp ∧ y = mk' (is_neg x) (y.digits ||| S127) y.exp then
    subCore (is_neg x) (x.digits ||| S127) x.exp (y.digits ||| S127) y.exp
  else unk

theorem subS_c {x y : F192} (h : is_neg x = is_neg y) : Le (subS x y) (sub x y) := by
  rw [sub, if_neg (by rw [h]; simp), subS]
  split
  · exact Le.refl _
  rename_i h1
  split
  · exact Le.refl _
  rename_i h2
  split
  · rename_i hc
    have := subCore_c (is_neg x) (x.digits ||| S127) x.exp (y.digits ||| S127) y.exp
    rw [← hc.1, ← hc.2, sub, if_neg (by rw [h]; simp), if_neg h1, if_neg h2] at this
    exact this
  · exact Le.unk _

/-- `add` of two numbers of the same sign -/
def addS (x y : F192) : M F192 :=
  if is_zero x then pure y
  else if is_zero y then pure x
  else if x.exp > y.exp then addAligned x y
  else addAligned y x

def addE (x y : F192) : M F192 :=
  if is_neg x != is_neg y then
    let a := if is_neg x then y else x
    let b := if is_neg x then neg x else neg y
    if is_neg a = is_neg b then subS a b else unk
  else addS x y

def subE (x y : F192) : M F192 :=
  if is_neg x != is_neg y then
    let a := if is_neg x then y else x
    let b := if is_neg x then neg x else neg y
    if is_neg a = is_neg b then do
      let r ← addS a b
      pure (if is_neg x then neg r else r)
    else unk
  else subS x y

theorem addS_eq {x y : F192} (h : is_neg x = is_neg y) : add x y = addS x y := by
  rw [add, addS, if_neg (by rw [h]; simp)]

theorem addE_c (x y : F192) : Le (addE x y) (add x y) := by
  rw [addE]
  split
  case isTrue h =>
    rw [add, if_pos h]
    dsimp only
    cases hx : is_neg x
    · simp only [Bool.false_eq_true, if_false]
      split
      · rename_i h'; exact subS_c h'
      · exact Le.unk _
    · simp only [if_true]
      split
      · rename_i h'; exact subS_c h'
      · exact Le.unk _
  case isFalse h =>
    rw [addS_eq (by simpa using h)]; exact Le.refl _

theorem subE_c (x y : F192) : Le (subE x y) (sub x y) := by
  rw [subE]
  split
  case isTrue h =>
    rw [sub, if_pos h]
    dsimp only
    cases hx : is_neg x
    · simp only [Bool.false_eq_true, if_false]
      split
      · rename_i h'; rw [addS_eq h', bind_pure]; exact Le.refl _
      · exact Le.unk _
    · simp only [if_true]
      split
      · rename_i h'; rw [addS_eq h']; exact Le.refl _
      · exact Le.unk _
  case isFalse h => exact subS_c (by simpa using h)

/-- `divLoop`, at most `n` rounds -/
def divLoopE (s o : F192) (negative : Bool) : Nat → F192 → F192 → M F192
  | 0, _, _ => unk
  | k + 1, min, max => do
    let t ← addS min max
    let mid := shr t 1
    let p ← mul o mid
    let min := if lt p s then mid else min
    let max := if lt p s then max else mid
    let n ← step_epsilon min
    if n = max then pure (if negative then neg max else max)
    else if is_neg min = is_neg max then divLoopE s o negative k min max
    else unk

theorem divLoopE_c (s o : F192) (ng : Bool) : ∀ (k : Nat) (a b : F192), is_neg a = is_neg b → Le (divLoopE s o ng k a b) (divLoop s o ng a b)
  | 0, _, _, _ => Le.unk _
  | k + 1, a, b, h => by
    rw [divLoop, divLoopE, addS_eq h]
    refine Le.bind' fun t => Le.bind' fun p => Le.bind' fun n => ?_
    refine Le.ite (Le.refl _) ?_
    by_cases h' : is_neg (if lt p s then shr t 1 else a) = is_neg (if lt p s then b else shr t 1)
    · rw [if_pos h']; exact divLoopE_c s o ng k _ _ h'
    · rw [if_neg h']; exact Le.unk _

def divE (x y : F192) : M F192 :=
  if is_zero x then pure ZERO
  else if is_zero y then throw .explicit
  else do
    let a ← fast_log2 x
    let b ← fast_log2 y
    let approx ← i64Chk (a - b)
    let lo ← i64Chk (approx - 1048576)
    let hi ← i64Chk (approx + 1048576)
    let min ← fast_pow2 lo
    let max ← fast_pow2 hi
    if is_neg min = is_neg max then divLoopE (abs x) (abs y) (is_neg x != is_neg y) 256 min max
    else unk

theorem divE_c (x y : F192) : Le (divE x y) (div x y) := by
  rw [divE, div]
  refine Le.ite (Le.refl _) (Le.ite (Le.refl _) ?_)
  refine Le.bind' fun a => Le.bind' fun b => Le.bind' fun c => Le.bind' fun lo => Le.bind' fun hi => Le.bind' fun min => Le.bind' fun max => ?_
  split
  · rename_i h; exact divLoopE_c _ _ _ _ _ _ h
  · exact Le.unk _

/-- `normLoop`, at most `n` rounds -/
def normLoopE : Nat → Nat → Nat → Nat → M (Nat × Nat × Nat)
  | 0, _, _, _ => unk
  | n + 1, digits, rem, exp =>
    if digits < SIGN_MASK then do
      let d ← u128Mul digits 2
      let r ← u128Mul rem 2
      let e ← uSub exp 1
      normLoopE n d r e
    else pure (digits, rem, exp)

theorem normLoopE_c : ∀ n d r e, Le (normLoopE n d r e) (normLoop d r e)
  | 0, _, _, _ => Le.unk _
  | n + 1, d, r, e => by
    rw [normLoopE, normLoop]
    exact Le.ite (Le.bind' fun _ => Le.bind' fun _ => Le.bind' fun _ => normLoopE_c n _ _ _) (Le.refl _)

def mul_i32E (x : F192) (a : Int) : M F192 :=
  if is_zero x || a == 0 then pure ZERO
  else do
    let d := x.digits ||| SIGN_MASK
    let k ← i32AbsU128 a
    let rem ← u128Mul (d &&& 4294967295) k
    let d ← uShr 128 d 32
    let d ← u128Mul d k
    let e ← u64Add x.exp 32
    let p ← normLoopE 130 d rem e
    let d ← u128Add p.1 (p.2.1 / 2 ^ 32)
    pure ⟨d &&& LOW_MASK ||| signBit (is_neg x != decide (a < 0)), p.2.2⟩

theorem mul_i32E_c (x : F192) (a : Int) : Le (mul_i32E x a) (mul_i32 x a) := by
  rw [mul_i32E, mul_i32]
  exact Le.ite (Le.refl _) (Le.bind' fun _ => Le.bind' fun _ => Le.bind' fun _ => Le.bind' fun _ => Le.bind' fun _ =>
    Le.bind (normLoopE_c _ _ _ _) fun _ => Le.refl _)

def div_i32E (x : F192) (a : Int) : M F192 :=
  if a = 0 then throw .explicit
  else if is_zero x then pure ZERO
  else do
    let d := x.digits ||| SIGN_MASK
    let k ← i32AbsU128 a
    let rem ← uRem d k
    let d ← uDiv d k
    let p ← normLoopE 130 d rem x.exp
    let q ← uDiv p.2.1 k
    let d ← u128Add p.1 q
    pure ⟨d &&& LOW_MASK ||| signBit (is_neg x != decide (a < 0)), p.2.2⟩

theorem div_i32E_c (x : F192) (a : Int) : Le (div_i32E x a) (div_i32 x a) := by
  rw [div_i32E, div_i32]
  exact Le.ite (Le.refl _) (Le.ite (Le.refl _) (Le.bind' fun _ => Le.bind' fun _ => Le.bind' fun _ =>
    Le.bind (normLoopE_c _ _ _ _) fun _ => Le.refl _))

def fracE (x : F192) : M F192 := do
  let t ← truncate x
  subE x t

theorem fracE_c (x : F192) : Le (fracE x) (frac x) := by
  rw [fracE, frac]; exact Le.bind' fun t => subE_c _ _

def hornerE (x : F192) : List (Bool × Lit) → F192 → M F192
  | [], r => pure r
  | (plus, c) :: t, r => do
    let r ← mul r x
    let c ← c.into
    let r ← if plus then addE r c else subE r c
    hornerE x t r

theorem hornerE_c (x : F192) : ∀ l r, Le (hornerE x l r) (horner x l r)
  | [], _ => Le.refl _
  | (plus, c) :: t, r => by
    rw [hornerE, horner]
    exact Le.bind' fun r => Le.bind' fun c => Le.ite (Le.bind (addE_c _ _) fun r => hornerE_c x t r) (Le.bind (subE_c _ _) fun r => hornerE_c x t r)

def nearE (x : F192) : M F192 := do
  let x' ← subE x PI_OVER_4
  let c ← (Lit.i32 11).into
  let r ← addE c x'
  let r ← hornerE x' nearCoeffs (neg r)
  let r ← mul r ONE_OVER_SQRT_2
  div_i32E r (1 * 2 * 3 * 4 * 5 * 6 * 7 * 8 * 9 * 10 * 11)

theorem nearE_c (x : F192) : Le (nearE x) (sin_near_pi_over_4 x) := by
  rw [nearE, sin_near_pi_over_4]
  exact Le.bind (subE_c _ _) fun _ => Le.bind' fun _ => Le.bind (addE_c _ _) fun _ => Le.bind (hornerE_c _ _ _) fun _ =>
    Le.bind' fun _ => div_i32E_c _ _

def sin_iterE (x : F192) : M F192 :=
  if gt x ONE_OVER_SQRT_2 then nearE x
  else do
    let x_sqr ← mul x x
    let c ← (Lit.i32 (18 * 19)).into
    let r ← subE c x_sqr
    let r ← hornerE x_sqr sinCoeffs r
    let r ← mul r x
    let r ← div_i32E (shr r 16) (6561 * 125)
    div_i32E r 2263261

theorem sin_iterE_c (x : F192) : Le (sin_iterE x) (sin_iter x) := by
  rw [sin_iterE, sin_iter]
  exact Le.ite (nearE_c _) (Le.bind' fun _ => Le.bind' fun _ => Le.bind (subE_c _ _) fun _ => Le.bind (hornerE_c _ _ _) fun _ =>
    Le.bind' fun _ => Le.bind (div_i32E_c _ _) fun _ => div_i32E_c _ _)

def cos_iterE (x : F192) : M F192 :=
  if gt x ONE_OVER_SQRT_2 then do
    let y ← subE PI_OVER_2 x
    nearE y
  else do
    let x_sqr ← mul x x
    let c ← (Lit.i32 (19 * 20)).into
    let r ← subE x_sqr c
    let r ← hornerE x_sqr cosCoeffs r
    let r ← div_i32E (shr r 18) (6561 * 625)
    div_i32E r 2263261

theorem cos_iterE_c (x : F192) : Le (cos_iterE x) (cos_iter x) := by
  rw [cos_iterE, cos_iter]
  exact Le.ite (Le.bind (subE_c _ _) fun _ => nearE_c _) (Le.bind' fun _ => Le.bind' fun _ => Le.bind (subE_c _ _) fun _ =>
    Le.bind (hornerE_c _ _ _) fun _ => Le.bind (div_i32E_c _ _) fun _ => div_i32E_c _ _)

def mod2piE (x : F192) : M F192 := do
  let pi_2 ← shl PI 1
  let d ← divE (abs x) pi_2
  let f ← fracE d
  mul f pi_2

theorem mod2piE_c (x : F192) : Le (mod2piE x) (mod2pi x) := by
  rw [mod2piE, mod2pi]
  exact Le.bind' fun _ => Le.bind (divE_c _ _) fun _ => Le.bind (fracE_c _) fun _ => Le.refl _

def sinQuarterE (x : F192) (neg' : Bool) : M F192 := do
  let r ← if gt x PI_OVER_4 then do
      let y ← subE PI_OVER_2 x
      cos_iterE y
    else sin_iterE x
  pure (if neg' then neg r else r)

theorem sinQuarterE_c (x : F192) (b : Bool) : Le (sinQuarterE x b) (sinQuarter x b) := by
  rw [sinQuarterE, sinQuarter]
  exact Le.ite (Le.bind (subE_c _ _) fun _ => Le.bind (cos_iterE_c _) fun _ => Le.refl _) (Le.bind (sin_iterE_c _) fun _ => Le.refl _)

def sinHalfE (x : F192) (neg' : Bool) : M F192 :=
  if gt x PI_OVER_2 then do
    let y ← subE PI x
    sinQuarterE y neg'
  else sinQuarterE x neg'

theorem sinHalfE_c (x : F192) (b : Bool) : Le (sinHalfE x b) (sinHalf x b) := by
  rw [sinHalfE, sinHalf]
  exact Le.ite (Le.bind (subE_c _ _) fun _ => sinQuarterE_c _ _) (sinQuarterE_c _ _)

def sinE (x : F192) : M F192 := do
  let y ← mod2piE x
  if gt y PI then do
    let y ← subE y PI
    sinHalfE y (!is_neg x)
  else sinHalfE y (is_neg x)

theorem sinE_c (x : F192) : Le (sinE x) (sin x) := by
  rw [sinE, sin]
  exact Le.bind (mod2piE_c _) fun _ => Le.ite (Le.bind (subE_c _ _) fun _ => sinHalfE_c _ _) (sinHalfE_c _ _)

def cosQuarterE (x : F192) (neg' : Bool) : M F192 := do
  let r ← if gt x PI_OVER_4 then do
      let y ← subE PI_OVER_2 x
      sin_iterE y
    else cos_iterE x
  pure (if neg' then neg r else r)

theorem cosQuarterE_c (x : F192) (b : Bool) : Le (cosQuarterE x b) (cosQuarter x b) := by
  rw [cosQuarterE, cosQuarter]
  exact Le.ite (Le.bind (subE_c _ _) fun _ => Le.bind (sin_iterE_c _) fun _ => Le.refl _) (Le.bind (cos_iterE_c _) fun _ => Le.refl _)

def cosHalfE (x : F192) : M F192 :=
  if gt x PI_OVER_2 then do
    let y ← subE PI x
    cosQuarterE y true
  else cosQuarterE x false

theorem cosHalfE_c (x : F192) : Le (cosHalfE x) (cosHalf x) := by
  rw [cosHalfE, cosHalf]
  exact Le.ite (Le.bind (subE_c _ _) fun _ => cosQuarterE_c _ _) (cosQuarterE_c _ _)

def cosE (x : F192) : M F192 := do
  let y ← mod2piE x
  if gt y PI then do
    let pi_2 ← shl PI 1
    let y ← subE pi_2 y
    cosHalfE y
  else cosHalfE y

theorem cosE_c (x : F192) : Le (cosE x) (cos x) := by
  rw [cosE, cos]
  exact Le.bind (mod2piE_c _) fun _ => Le.ite (Le.bind' fun _ => Le.bind (subE_c _ _) fun _ => cosHalfE_c _) (cosHalfE_c _)

def asinLoopE (x_sqr : F192) : Nat → Nat → F192 → F192 → M F192
  | 0, _, r, _ => pure r
  | n + 1, i, r, c => do
    let r ← addE r c
    let c ← mul c x_sqr
    let c ← mul_i32E c ((2 * i + 3) * (2 * i + 3) * (2 * i + 4))
    let c ← div_i32E c ((i + 2) * (i + 2) * (2 * i + 5) * 4)
    asinLoopE x_sqr n (i + 1) r c

theorem asinLoopE_c (q : F192) : ∀ n i r c, Le (asinLoopE q n i r c) (asinLoop q n i r c)
  | 0, _, _, _ => Le.refl _
  | n + 1, i, r, c => by
    rw [asinLoopE, asinLoop]
    exact Le.bind (addE_c _ _) fun _ => Le.bind' fun _ => Le.bind (mul_i32E_c _ _) fun _ => Le.bind (div_i32E_c _ _) fun _ =>
      asinLoopE_c q n _ _ _

def asinE (x : F192) : M F192 := do
  let r := if is_neg x then neg x else x
  if gt r ONE then throw .explicit
  else if gt x ONE_OVER_SQRT_2 then throw .explicit
  else do
    let x_sqr ← mul r r
    let c ← mul x_sqr r
    let c ← div_i32E c 6
    let r ← asinLoopE x_sqr 15 0 r c
    pure (if is_neg x then neg r else r)

theorem asinE_c (x : F192) : Le (asinE x) (asin x) := by
  rw [asinE, asin]
  exact Le.ite (Le.refl _) (Le.ite (Le.refl _) (Le.bind' fun _ => Le.bind' fun _ => Le.bind (div_i32E_c _ _) fun _ =>
    Le.bind (asinLoopE_c _ _ _ _ _) fun _ => Le.refl _))

def acosE (x : F192) : M F192 := do
  let a ← asinE x
  subE PI_OVER_2 a

theorem acosE_c (x : F192) : Le (acosE x) (acos x) := by
  rw [acosE, acos]
  exact Le.bind (asinE_c _) fun _ => subE_c _ _

def atanLoopE (x_sqr : F192) : Nat → Nat → F192 → F192 → M F192
  | 0, k, r, c => do
    let t ← div_i32E c k
    subE r t
  | n + 1, k, r, c => do
    let t ← div_i32E c k
    let r ← subE r t
    let c ← mul c x_sqr
    let t ← div_i32E c (k + 2)
    let r ← addE r t
    let c ← mul c x_sqr
    atanLoopE x_sqr n (k + 4) r c

theorem atanLoopE_c (q : F192) : ∀ n k r c, Le (atanLoopE q n k r c) (atanLoop q n k r c)
  | 0, _, _, _ => by
    rw [atanLoopE, atanLoop]
    exact Le.bind (div_i32E_c _ _) fun _ => subE_c _ _
  | n + 1, k, r, c => by
    rw [atanLoopE, atanLoop]
    exact Le.bind (div_i32E_c _ _) fun _ => Le.bind (subE_c _ _) fun _ => Le.bind' fun _ => Le.bind (div_i32E_c _ _) fun _ =>
      Le.bind (addE_c _ _) fun _ => Le.bind' fun _ => atanLoopE_c q n _ _ _

def atanUnitE (r : F192) : M F192 :=
  if gt r ONE_OVER_SQRT_2 then throw .explicit
  else do
    let x_sqr ← mul r r
    let c ← mul x_sqr r
    atanLoopE x_sqr 7 3 r c

theorem atanUnitE_c (x : F192) : Le (atanUnitE x) (atanUnit x) := by
  rw [atanUnitE, atanUnit]
  exact Le.ite (Le.refl _) (Le.bind' fun _ => Le.bind' fun _ => atanLoopE_c _ _ _ _ _)

def atanE (x : F192) : M F192 := do
  let a := if is_neg x then neg x else x
  let r ← if gt a ONE then do
      let q ← divE ONE a
      let t ← atanUnitE q
      subE PI_OVER_2 t
    else atanUnitE a
  pure (if is_neg x then neg r else r)

theorem atanE_c (x : F192) : Le (atanE x) (atan x) := by
  rw [atanE, atan]
  exact Le.ite (Le.bind (divE_c _ _) fun _ => Le.bind (atanUnitE_c _) fun _ => Le.bind (subE_c _ _) fun _ => Le.refl _)
    (Le.bind (atanUnitE_c _) fun _ => Le.refl _)

end F192
end Hmath
