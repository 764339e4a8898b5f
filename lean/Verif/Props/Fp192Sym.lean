import Verif.Props.Fp192Atrigo

/-!
# C84: symmetries of the operations on 192-bit floating point numbers, panics included
-/

namespace Hmath
namespace F192

theorem pack_neg (d e : Nat) (b : Bool) :
    (neg ⟨d &&& LOW_MASK ||| signBit b, e⟩ = ⟨d &&& LOW_MASK ||| signBit (!b), e⟩) ∨
      (⟨d &&& LOW_MASK ||| signBit b, e⟩ : F192) = ZERO ∧ (⟨d &&& LOW_MASK ||| signBit (!b), e⟩ : F192) = Props.negTiny := by
  have hm : Nrm (d % S127 + S127) := ⟨by omega, by have := Nat.mod_lt d (show S127 > 0 by decide); have : S127 = 170141183460469231731687303715884105728 := rfl; omega⟩
  have h := fun b => pack_mk (s := b) (e := e) (d := d) hm (by omega)
  rw [h b, h (!b)]
  by_cases hz : Z b (d % S127 + S127) e
  · right
    obtain ⟨h1, h2, h3⟩ := hz
    rw [h1, h2, h3]
    exact ⟨by decide, by decide⟩
  · left
    exact neg_mk hm hz

theorem neg_neg (x : F192) : neg (neg x) = x ∨ x = Props.negTiny := by
  obtain ⟨d, e⟩ := x
  by_cases h : is_zero ⟨d, e⟩ = true
  · left
    rw [is_zero_eq, decide_eq_true_eq] at h
    rw [h]; decide
  · rw [neg, neg, if_neg h]
    by_cases h' : is_zero ⟨d ^^^ SIGN_MASK, e⟩ = true
    · right
      rw [is_zero_eq, decide_eq_true_eq, ZERO, F192.mk.injEq] at h'
      rw [Props.negTiny, F192.mk.injEq]
      refine ⟨?_, h'.2⟩
      have := congrArg (· ^^^ SIGN_MASK) h'.1
      simp only [Nat.xor_assoc, Nat.xor_self, Nat.xor_zero, Nat.zero_xor] at this
      rw [this]; rfl
    · left
      rw [if_neg h', Nat.xor_assoc, Nat.xor_self, Nat.xor_zero]

theorem abs_neg_eq {x : F192} (hx : FValid x) : abs (neg x) = abs x := by
  obtain ⟨s, m, e, hm, he, rfl⟩ := exists_mk hx
  by_cases hz : Z s m e
  · obtain ⟨rfl, rfl, rfl⟩ := hz; decide
  · rw [neg_mk hm hz, abs_mk hm, abs_mk hm]

theorem is_neg_neg {x : F192} (hx : FValid x) (h0 : x ≠ ZERO) : is_neg (neg x) = !is_neg x := by
  obtain ⟨s, m, e, hm, he, rfl⟩ := exists_mk hx
  by_cases hz : Z s m e
  · obtain ⟨rfl, rfl, rfl⟩ := hz; exact absurd (by decide) h0
  · rw [neg_mk hm hz, is_neg_mk hm, is_neg_mk hm]

end F192

namespace Props
open F192 (ZERO ONE signBit LOW_MASK)

/-- `b` is the negative of `a`: the same panic, or the negated number.  Where `a` is zero `b` may be the negative number of least magnitude,
whose digits and exponent field are those of zero. -/
def NegOf (a b : M F192) : Prop :=
  b = (do let z ← a; pure (F192.neg z)) ∨ a = pure ZERO ∧ b = pure negTiny

theorem NegOf.bind {α : Type} {r : M α} {f g : α → M F192} (h : ∀ z, NegOf (f z) (g z)) : NegOf (r >>= f) (r >>= g) := by
  match r with
  | none => exact Or.inl rfl
  | some (.error p) => exact Or.inl rfl
  | some (.ok z) => exact h z

theorem NegOf.ite {p : Prop} [Decidable p] {a b c d : M F192} (h1 : NegOf a b) (h2 : NegOf c d) :
    NegOf (if p then a else c) (if p then b else d) := by
  by_cases h : p
  · rwa [if_pos h, if_pos h]
  · rwa [if_neg h, if_neg h]

theorem NegOf.flag (z : F192) (b : Bool) : NegOf (pure (if b = true then F192.neg z else z)) (pure (if (!b) = true then F192.neg z else z)) := by
  cases b
  · exact Or.inl rfl
  · rcases F192.neg_neg z with h | rfl
    · refine Or.inl ?_
      rw [pure_bind, if_pos rfl, h]; rfl
    · exact Or.inr ⟨by decide, rfl⟩

private theorem digits_top {x y : F192} (hx : FValid x) (hy : FValid y) (h : F192.is_neg x = F192.is_neg y) :
    x.digits / 2 ^ 127 = y.digits / 2 ^ 127 := by
  obtain ⟨hx, -⟩ := hx
  obtain ⟨hy, -⟩ := hy
  rw [F192.is_neg, F192.is_neg, Bool.eq_iff_iff, beq_iff_eq, beq_iff_eq] at h
  norm_num at hx hy h ⊢
  omega

private theorem add128 (a b : Nat) : u128Add a b = u128Add b a := by unfold u128Add uAdd; rw [Nat.add_comm]

private theorem add64 (a b : Nat) : u64Add a b = u64Add b a := by unfold u64Add uAdd; rw [Nat.add_comm]

private theorem mul128 (a b : Nat) : u128Mul a b = u128Mul b a := by unfold u128Mul uMul; rw [Nat.mul_comm]

private theorem aligned_comm {x y : F192} (hd : x.digits / 2 ^ 127 = y.digits / 2 ^ 127) (he : x.exp = y.exp) :
    F192.addAligned x y = F192.addAligned y x := by
  have hs : ∀ d, uShr 128 d 0 = pure d := fun d => by rw [uShr, if_pos (by norm_num)]; simp
  rw [F192.addAligned, F192.addAligned, hd, he, Nat.sub_self]
  simp only [hs, pure_bind]
  rw [Nat.add_comm (x.digits ||| F192.SIGN_MASK), Nat.add_comm ((x.digits ||| F192.SIGN_MASK) % 2), add128 ((x.digits ||| F192.SIGN_MASK) / 2),
    if_neg (show ¬(0 > 127) by norm_num), if_neg (show ¬(0 > 127) by norm_num)]

/-- Sums do not depend on the order. -/
theorem C84_add_comm {x y : F192} (hx : FValid x) (hy : FValid y) : F192.add x y = F192.add y x := by
  have key : F192.is_neg x = F192.is_neg y → F192.add x y = F192.add y x := by
    intro h
    rw [F192.add, F192.add, h, bne_self_eq_false, if_neg Bool.false_ne_true, if_neg Bool.false_ne_true]
    by_cases zx : F192.is_zero x = true <;> by_cases zy : F192.is_zero y = true
    · rw [if_pos zx, if_pos zy]
      rw [F192.is_zero_eq, decide_eq_true_eq] at zx zy
      rw [zx, zy]
    · rw [if_pos zx, if_neg zy, if_pos zx]
    · rw [if_neg zx, if_pos zy, if_pos zy]
    · rw [if_neg zx, if_neg zy, if_neg zy, if_neg zx]
      rcases lt_trichotomy x.exp y.exp with he | he | he
      · rw [if_neg (by omega), if_pos he]
      · rw [if_neg (by omega), if_neg (by omega)]
        exact aligned_comm (digits_top hy hx h.symm) he.symm
      · rw [if_pos he, if_neg (by omega)]
  rw [F192.add, F192.add] at key
  rw [F192.add, F192.add]
  cases hx : F192.is_neg x <;> cases hy : F192.is_neg y
  · rw [hx, hy] at key; exact key rfl
  · rfl
  · rfl
  · rw [hx, hy] at key; exact key rfl

/-- Products do not depend on the order. -/
theorem C84_mul_comm {x y : F192} : F192.mul x y = F192.mul y x := by
  have hm : ∀ a b e, F192.mulDigits a b e = F192.mulDigits b a e := by
    intro a b e
    rw [F192.mulDigits, F192.mulDigits, mul128 (a / 2 ^ 64) (b / 2 ^ 64)]
    congr 1; funext hi
    unfold u128Mul uMul
    split <;> split <;> first | rfl | skip
    simp only [pure_bind]
    rw [add128]
  rw [F192.mul, F192.mul, Bool.or_comm]
  rw [add64, Nat.xor_comm]
  simp only [hm (F192.SIGN_MASK ||| x.digits)]

/-- a sum that does not fit panics in both orders -/
example : F192.add F192.MAX F192.ONE = F192.add F192.ONE F192.MAX := C84_add_comm (by decide) (by decide)

example : F192.mul F192.MIN F192.PI = F192.mul F192.PI F192.MIN := C84_mul_comm

private instance : DecidableEq (M F192) := inferInstanceAs (DecidableEq (Option (Except Panic F192)))

/-- Between numbers of different signs, the difference changes its sign when the operands are exchanged. -/
theorem C84_sub_swap_partial {x y : F192} (hx : FValid x) (hy : FValid y) (tx : x ≠ negTiny) (ty : y ≠ negTiny) (h : fval x * fval y < 0) :
    NegOf (F192.sub x y) (F192.sub y x) := by
  have hn : F192.is_neg y = !F192.is_neg x := by
    have h1 := (C59_sign_partial hx tx).2.2.2.2
    have h2 := (C59_sign_partial hy ty).2.2.2.2
    cases hx : F192.is_neg x <;> cases hy : F192.is_neg y <;> first | rfl | exfalso
    · rw [hx] at h1
      rw [hy] at h2
      have a1 : ¬fval x < 0 := fun hc => Bool.false_ne_true (h1.2 hc)
      have a2 : ¬fval y < 0 := fun hc => Bool.false_ne_true (h2.2 hc)
      nlinarith
    · have a1 := h1.1 hx
      have a2 := h2.1 hy
      nlinarith
  rw [F192.sub, F192.sub, hn]
  cases hx : F192.is_neg x
  · exact Or.inl rfl
  · have := NegOf.bind (r := F192.add y (F192.neg x)) fun z => NegOf.flag z true
    simp only [Bool.not_true, Bool.false_eq_true, if_true, if_false, bind_pure] at this
    exact this

/-- `2 - (-1)` -/
example : NegOf (F192.sub ⟨0, 2 ^ 48 - 126⟩ (F192.neg F192.ONE)) (F192.sub (F192.neg F192.ONE) ⟨0, 2 ^ 48 - 126⟩) := by
  refine C84_sub_swap_partial (by decide) (by decide) (by decide) (by decide) (mul_neg_of_pos_of_neg ?_ ?_)
  · exact lt_of_eq_of_lt F192.fval_zero.symm (((C39_ops (y := ZERO) (by decide) (by decide)).2.1).1 (by decide))
  · exact lt_of_lt_of_eq (((C39_ops (x := ZERO) (by decide) (by decide)).2.1).1 (by decide)) F192.fval_zero

/-- Differences may stay the same when the operands are exchanged: `1 - 2^-130` and `2^-130 - 1` are both `-1/2`. -/
theorem C84_sub_counterexample : ∃ x y z, FValid x ∧ FValid y ∧ fval x = 1 ∧ fval y = 1 / 2 ^ 130 ∧ fval z = -1 / 2 ∧
    F192.sub x y = pure z ∧ F192.sub y x = pure z :=
  ⟨_, _, _, by decide, by decide, C41_sub_counterexample.2.1, C41_sub_counterexample.2.2.1, C41_sub_counterexample.2.2.2,
    C41_sub_counterexample.1, (F192.subE_c _ _).ret (by decide +kernel)⟩

private theorem nzero {x : F192} (h : x ≠ ZERO) : F192.is_zero x = false := by
  rw [F192.is_zero_eq, decide_eq_false h]

private theorem neg_ne {x : F192} (h0 : x ≠ ZERO) (ht : x ≠ negTiny) : F192.neg x ≠ ZERO := by
  intro hc
  rcases F192.neg_neg x with h | h
  · exact h0 (h.symm.trans (by rw [hc]; decide))
  · exact ht h

private theorem mul_neg_of {x y : F192} (hx : FValid x) (ht : x ≠ negTiny) (hy : FValid y) :
    NegOf (F192.mul x y) (F192.mul (F192.neg x) y) := by
  by_cases h0 : x = ZERO
  · rw [h0, show F192.neg ZERO = ZERO by decide, show F192.mul ZERO y = pure ZERO from rfl]
    exact Or.inl rfl
  by_cases hz : y = ZERO
  · rw [hz, C84_mul_comm, C84_mul_comm (x := F192.neg x), show ∀ w, F192.mul ZERO w = pure ZERO from fun _ => rfl]
    exact Or.inl rfl
  have hn := neg_ne h0 ht
  obtain ⟨s, m, e, hm, he, rfl⟩ := F192.exists_mk hx
  obtain ⟨s', m', e', hm', he', rfl⟩ := F192.exists_mk hy
  have hs : ¬F192.Z s m e := by
    rintro ⟨rfl, rfl, rfl⟩; exact h0 (by decide)
  rw [F192.mul, F192.mul, nzero h0, nzero hz, nzero hn, Bool.false_or, if_neg Bool.false_ne_true, if_neg Bool.false_ne_true,
    F192.neg_mk hm hs, F192.xor_sign _ _ _ _ _ _ hm hm', F192.xor_sign _ _ _ _ _ _ hm hm', F192.or_mk' hm, F192.or_mk' hm, F192.or_mk' hm',
    F192.mk_exp, F192.mk_exp, F192.mk_exp, show ((!s) != s') = !(s != s') by cases s <;> cases s' <;> rfl]
  refine NegOf.bind fun t => ?_
  split
  · exact Or.inl rfl
  refine NegOf.bind fun t => NegOf.bind fun t => NegOf.bind fun d => NegOf.bind fun f => ?_
  rcases F192.pack_neg d f (s != s') with h | h
  · left
    rw [pure_bind, h]
  · right
    exact ⟨congrArg _ h.1, congrArg _ h.2⟩

/-- no product is the negative number of least magnitude -/
private theorem mul_ne_tiny {x y : F192} (hx : FValid x) (hy : FValid y) : F192.mul x y ≠ pure negTiny := by
  intro h
  obtain ⟨s, m, e, hm, he, rfl⟩ := F192.exists_mk hx
  obtain ⟨s', m', e', hm', he', rfl⟩ := F192.exists_mk hy
  by_cases hz : F192.Z s m e ∨ F192.Z s' m' e'
  · rw [F192.mul, if_pos (by rw [F192.is_zero_mk hm, F192.is_zero_mk hm', Bool.or_eq_true, decide_eq_true_eq, decide_eq_true_eq]; exact hz)] at h
    cases h
  rw [not_or] at hz
  by_cases h1 : e + e' < B64
  · by_cases h2 : 281474976710656 ≤ e + e'
    · obtain ⟨m₃, e₃, -, -, h3, -, -, h4, -⟩ := F192.mul_c hm hm' hz.1 hz.2 h2 h1
      rw [h4] at h
      have h5 : F192.mk' (s != s') m₃ e₃ = negTiny := by injection h with h; injection h
      have := congrArg F192.exp h5
      rw [F192.mk_exp] at this
      have : negTiny.exp = 0 := rfl
      omega
    · rw [F192.mul, if_neg (by rw [F192.is_zero_mk hm, F192.is_zero_mk hm', Bool.or_eq_true, decide_eq_true_eq, decide_eq_true_eq, not_or]; exact hz),
        F192.mk_exp, F192.mk_exp, u64Add, uAdd_eq h1, pure_bind, if_pos (by unfold F192.EXP_COEFF; omega)] at h
      cases h
  · rw [F192.mul, if_neg (by rw [F192.is_zero_mk hm, F192.is_zero_mk hm', Bool.or_eq_true, decide_eq_true_eq, decide_eq_true_eq, not_or]; exact hz),
      F192.mk_exp, F192.mk_exp, u64Add, uAdd, if_neg h1] at h
    cases h

/-- A product changes its sign with either factor. -/
theorem C84_mul_neg {x y : F192} (hx : FValid x) (ht : x ≠ negTiny) (hy : FValid y) :
    F192.mul (F192.neg x) y = (do let z ← F192.mul x y; pure (F192.neg z)) ∧
      F192.mul y (F192.neg x) = (do let z ← F192.mul y x; pure (F192.neg z)) := by
  rw [C84_mul_comm (x := y), C84_mul_comm (x := y), and_self]
  rcases mul_neg_of hx ht hy with h | ⟨-, h⟩
  · exact h
  · exact absurd h (mul_ne_tiny (C59_sign_partial hx ht).2.2.1 hy)

/-- `(-3) * 5` -/
example : ∃ z, F192.mul ⟨2 ^ 126, 2 ^ 48 - 126⟩ ⟨2 ^ 125, 2 ^ 48 - 125⟩ = pure z ∧ F192.mul ⟨2 ^ 127 + 2 ^ 126, 2 ^ 48 - 126⟩ ⟨2 ^ 125, 2 ^ 48 - 125⟩ = pure (F192.neg z) := by
  refine ⟨⟨7 * 2 ^ 124, 2 ^ 48 - 124⟩, by decide +kernel, ?_⟩
  have := (C84_mul_neg (x := ⟨2 ^ 126, 2 ^ 48 - 126⟩) (y := ⟨2 ^ 125, 2 ^ 48 - 125⟩) (by decide) (by decide) (by decide)).1
  rw [show F192.mul ⟨2 ^ 126, 2 ^ 48 - 126⟩ ⟨2 ^ 125, 2 ^ 48 - 125⟩ = pure ⟨7 * 2 ^ 124, 2 ^ 48 - 124⟩ by decide +kernel] at this
  exact this

/-- Products with an `i32` and quotients by an `i32` change their sign with the number. -/
theorem C84_i32_neg {x : F192} (hx : FValid x) (ht : x ≠ negTiny) (a : Int) :
    NegOf (F192.mul_i32 x a) (F192.mul_i32 (F192.neg x) a) ∧ NegOf (F192.div_i32 x a) (F192.div_i32 (F192.neg x) a) := by
  by_cases h0 : x = ZERO
  · rw [h0, show F192.neg ZERO = ZERO by decide, F192.div_i32]
    refine ⟨Or.inl rfl, ?_⟩
    split <;> exact Or.inl rfl
  have hn := neg_ne h0 ht
  obtain ⟨s, m, e, hm, he, rfl⟩ := F192.exists_mk hx
  have hs : ¬F192.Z s m e := by
    rintro ⟨rfl, rfl, rfl⟩; exact h0 (by decide)
  have hp : ∀ d f, NegOf (pure ⟨d &&& LOW_MASK ||| signBit (s != decide (a < 0)), f⟩) (pure ⟨d &&& LOW_MASK ||| signBit ((!s) != decide (a < 0)), f⟩) := by
    intro d f
    rw [show ((!s) != decide (a < 0)) = !(s != decide (a < 0)) by cases s <;> cases decide (a < 0) <;> rfl]
    rcases F192.pack_neg d f (s != decide (a < 0)) with h | h
    · left
      rw [pure_bind, h]
    · right
      exact ⟨congrArg _ h.1, congrArg _ h.2⟩
  constructor
  · rw [F192.mul_i32, F192.mul_i32, nzero h0, nzero hn, Bool.false_or]
    split
    · exact Or.inl rfl
    rw [F192.neg_mk hm hs, F192.or_mk hm, F192.or_mk hm, F192.is_neg_mk hm, F192.is_neg_mk hm, F192.mk_exp, F192.mk_exp]
    exact NegOf.bind fun _ => NegOf.bind fun _ => NegOf.bind fun _ => NegOf.bind fun _ => NegOf.bind fun _ => NegOf.bind fun _ =>
      NegOf.bind fun _ => hp _ _
  · rw [F192.div_i32, F192.div_i32, nzero h0, nzero hn]
    split
    · exact Or.inl rfl
    rw [if_neg Bool.false_ne_true, if_neg Bool.false_ne_true, F192.neg_mk hm hs, F192.or_mk hm, F192.or_mk hm, F192.is_neg_mk hm, F192.is_neg_mk hm,
      F192.mk_exp, F192.mk_exp]
    exact NegOf.bind fun _ => NegOf.bind fun _ => NegOf.bind fun _ => NegOf.bind fun _ => NegOf.bind fun _ => NegOf.bind fun _ => hp _ _

/-- `pi * 7` and `pi / 7` -/
example : NegOf (F192.mul_i32 F192.PI 7) (F192.mul_i32 (F192.neg F192.PI) 7) ∧ NegOf (F192.div_i32 F192.PI 7) (F192.div_i32 (F192.neg F192.PI) 7) :=
  C84_i32_neg (by decide) (by decide) 7

private theorem aligned_neg {s : Bool} {m e m' e' : Nat} (hm : F192.Nrm m) (hm' : F192.Nrm m') (hs : ¬F192.Z s m e) :
    NegOf (F192.addAligned (F192.mk' s m e) (F192.mk' s m' e')) (F192.addAligned (F192.mk' (!s) m e) (F192.mk' (!s) m' e')) := by
  have ht : ∀ s : Bool, (F192.mk' s m e).digits / 2 ^ 127 * 2 ^ 127 = signBit s := by
    intro s
    rw [show (2 : Nat) ^ 127 = 170141183460469231731687303715884105728 by norm_num, F192.digits_div hm]
    cases s <;> decide
  rw [F192.addAligned, F192.addAligned, F192.or_mk hm, F192.or_mk hm, F192.or_mk hm', F192.or_mk hm', ht, ht]
  simp only [F192.mk_exp]
  refine NegOf.ite (Or.inl ?_) ?_
  · rw [pure_bind, F192.neg_mk hm hs]
  refine NegOf.bind fun d => ?_
  have hp : ∀ d f, NegOf (pure ⟨d &&& LOW_MASK ||| signBit s, f⟩) (pure ⟨d &&& LOW_MASK ||| signBit (!s), f⟩) := by
    intro d f
    rcases F192.pack_neg d f s with h | h
    · left
      rw [pure_bind, h]
    · right
      exact ⟨congrArg _ h.1, congrArg _ h.2⟩
  exact NegOf.ite (hp _ _) (NegOf.bind fun _ => NegOf.bind fun _ => NegOf.bind fun _ => hp _ _)

/-- The sum of the negatives of two numbers of the same sign. -/
theorem C84_add_neg {x y : F192} (hx : FValid x) (hy : FValid y) (tx : x ≠ negTiny) (ty : y ≠ negTiny) (h : 0 < fval x * fval y) :
    NegOf (F192.add x y) (F192.add (F192.neg x) (F192.neg y)) := by
  have hz : fval ZERO = 0 := F192.fval_zero
  have h1 : x ≠ ZERO := by rintro rfl; rw [hz, zero_mul] at h; exact absurd h (lt_irrefl _)
  have h2 : y ≠ ZERO := by rintro rfl; rw [hz, mul_zero] at h; exact absurd h (lt_irrefl _)
  have hn : F192.is_neg x = F192.is_neg y := by
    rw [Bool.eq_iff_iff, (C59_sign_partial hx tx).2.2.2.2, (C59_sign_partial hy ty).2.2.2.2]
    constructor <;> intro hc <;> nlinarith
  have n1 := neg_ne h1 tx
  have n2 := neg_ne h2 ty
  rw [F192.add, F192.add, F192.is_neg_neg hx h1, F192.is_neg_neg hy h2, hn, bne_self_eq_false, bne_self_eq_false, nzero h1, nzero h2, nzero n1, nzero n2]
  simp only [Bool.false_eq_true, if_false]
  obtain ⟨s, m, e, hm, he, rfl⟩ := F192.exists_mk hx
  obtain ⟨s', m', e', hm', he', rfl⟩ := F192.exists_mk hy
  have hs : ¬F192.Z s m e := by
    rintro ⟨rfl, rfl, rfl⟩; exact h1 (by decide)
  have hs' : ¬F192.Z s' m' e' := by
    rintro ⟨rfl, rfl, rfl⟩; exact h2 (by decide)
  rw [F192.is_neg_mk hm, F192.is_neg_mk hm'] at hn
  subst hn
  rw [F192.neg_mk hm hs, F192.neg_mk hm' hs']
  simp only [F192.mk_exp]
  exact NegOf.ite (aligned_neg hm hm' hs) (aligned_neg hm' hm hs')

/-- `pi + e` -/
example : NegOf (F192.add F192.PI F192.E) (F192.add (F192.neg F192.PI) (F192.neg F192.E)) := by
  refine C84_add_neg (by decide) (by decide) (by decide) (by decide) (mul_pos ?_ ?_) <;>
    exact lt_of_eq_of_lt F192.fval_zero.symm (((C39_ops (y := ZERO) (by decide) (by decide)).2.1).1 (by decide))

private theorem admis (P : F192 → F192 → M F192 → Prop) (h : ∀ a b, P a b (none : Option (Except Panic F192))) :
    Lean.Order.admissible (fun f : F192 → F192 → M F192 => ∀ a b, P a b (f a b)) := by
  refine Lean.Order.admissible_pi_apply (β := fun _ => F192 → M F192) (fun a g => ∀ b, P a b (g b)) fun a => ?_
  refine Lean.Order.admissible_pi_apply (β := fun _ => M F192) (fun b m => P a b m) fun b => ?_
  exact Lean.Order.admissible_flatOrder (b := (none : Option (Except Panic F192))) (P a b) (h a b)

private theorem div_flag (s o : F192) (a b : F192) :
    F192.divLoop s o true a b = (do let z ← F192.divLoop s o false a b; pure (F192.neg z)) := by
  have h1 : ∀ a b, F192.Le (F192.divLoop s o true a b) (do let z ← F192.divLoop s o false a b; pure (F192.neg z)) := by
    refine F192.divLoop.fixpoint_induct s o true (fun f => ∀ a b, F192.Le (f a b) (do let z ← F192.divLoop s o false a b; pure (F192.neg z))) ?_ ?_
    · exact admis (fun a b m => F192.Le m (do let z ← F192.divLoop s o false a b; pure (F192.neg z))) fun a b r h => by cases h
    · intro f hf a b
      rw [F192.divLoop]
      simp only [bind_assoc]
      refine F192.Le.bind' fun t => F192.Le.bind' fun p => F192.Le.bind' fun n => ?_
      by_cases hc : n = if F192.lt p s = true then b else F192.shr t 1
      · rw [if_pos hc, if_pos hc]; exact F192.Le.refl _
      · rw [if_neg hc, if_neg hc]; exact hf _ _
  have h2 : ∀ a b, F192.Le (do let z ← F192.divLoop s o false a b; pure (F192.neg z)) (F192.divLoop s o true a b) := by
    refine F192.divLoop.fixpoint_induct s o false (fun f => ∀ a b, F192.Le (do let z ← f a b; pure (F192.neg z)) (F192.divLoop s o true a b)) ?_ ?_
    · exact admis (fun a b m => F192.Le (do let z ← m; pure (F192.neg z)) (F192.divLoop s o true a b)) fun a b r h => by cases h
    · intro f hf a b
      rw [F192.divLoop]
      simp only [bind_assoc]
      refine F192.Le.bind' fun t => F192.Le.bind' fun p => F192.Le.bind' fun n => ?_
      by_cases hc : n = if F192.lt p s = true then b else F192.shr t 1
      · rw [if_pos hc, if_pos hc]; exact F192.Le.refl _
      · rw [if_neg hc, if_neg hc]; exact hf _ _
  cases h : F192.divLoop s o true a b with
  | some r => exact (h1 a b r h).symm
  | none =>
    cases h' : (do let z ← F192.divLoop s o false a b; pure (F192.neg z) : M F192) with
    | none => rfl
    | some r => rw [h2 a b r h'] at h; cases h

private theorem div_flip (s o : F192) (c : Bool) (a b : F192) : NegOf (F192.divLoop s o c a b) (F192.divLoop s o (!c) a b) := by
  have h : ∀ c, F192.divLoop s o c a b = (do let z ← F192.divLoop s o false a b; pure (if c = true then F192.neg z else z)) := by
    intro c
    cases c
    · exact (bind_pure _).symm
    · exact div_flag s o a b
  rw [h c, h (!c)]
  exact NegOf.bind fun r => NegOf.flag r c

private theorem log_neg {x : F192} (hx : FValid x) : F192.fast_log2 (F192.neg x) = F192.fast_log2 x := by
  have h := F192.abs_neg_eq hx
  rw [F192.abs, F192.abs, F192.mk.injEq] at h
  rw [F192.fast_log2, F192.fast_log2, F192.expI64, F192.expI64, h.1, h.2]

/-- A quotient changes its sign with the dividend and with the divisor. -/
theorem C84_div_neg {x y : F192} (hx : FValid x) (hy : FValid y) :
    (x ≠ negTiny → NegOf (F192.div x y) (F192.div (F192.neg x) y)) ∧ (y ≠ negTiny → NegOf (F192.div x y) (F192.div x (F192.neg y))) := by
  by_cases hz : x = ZERO
  · rw [hz, show F192.neg ZERO = ZERO by decide, show ∀ w, F192.div ZERO w = pure ZERO from fun _ => rfl]
    exact ⟨fun _ => Or.inl rfl, fun _ => Or.inl rfl⟩
  have hd : F192.div x ZERO = throw .explicit := by
    rw [F192.div, nzero hz, if_neg Bool.false_ne_true, if_pos (by decide)]
  by_cases h0 : y = ZERO
  · constructor
    · intro ht
      rw [h0, hd, F192.div, nzero (neg_ne hz ht), if_neg Bool.false_ne_true, if_pos (by decide)]
      exact Or.inl rfl
    · intro _
      rw [h0, show F192.neg ZERO = ZERO by decide, hd]
      exact Or.inl rfl
  constructor
  · intro ht
    rw [F192.div, F192.div, nzero (neg_ne hz ht), nzero hz, nzero h0, if_neg Bool.false_ne_true, if_neg Bool.false_ne_true,
      if_neg Bool.false_ne_true, if_neg Bool.false_ne_true, log_neg hx, F192.abs_neg_eq hx, F192.is_neg_neg hx hz,
      show ((!F192.is_neg x) != F192.is_neg y) = !(F192.is_neg x != F192.is_neg y) by cases F192.is_neg x <;> cases F192.is_neg y <;> rfl]
    exact NegOf.bind fun _ => NegOf.bind fun _ => NegOf.bind fun _ => NegOf.bind fun _ => NegOf.bind fun _ => NegOf.bind fun _ =>
      NegOf.bind fun _ => div_flip _ _ _ _ _
  · intro ht
    rw [F192.div, F192.div, nzero (neg_ne h0 ht), nzero hz, nzero h0, if_neg Bool.false_ne_true, if_neg Bool.false_ne_true,
      if_neg Bool.false_ne_true, if_neg Bool.false_ne_true, log_neg hy, F192.abs_neg_eq hy, F192.is_neg_neg hy h0,
      show (F192.is_neg x != !F192.is_neg y) = !(F192.is_neg x != F192.is_neg y) by cases F192.is_neg x <;> cases F192.is_neg y <;> rfl]
    exact NegOf.bind fun _ => NegOf.bind fun _ => NegOf.bind fun _ => NegOf.bind fun _ => NegOf.bind fun _ => NegOf.bind fun _ =>
      NegOf.bind fun _ => div_flip _ _ _ _ _

/-- `1 / 3` and `1 / (-3)` -/
example : NegOf (F192.div F192.ONE ⟨2 ^ 126, 2 ^ 48 - 126⟩) (F192.div F192.ONE (F192.neg ⟨2 ^ 126, 2 ^ 48 - 126⟩)) :=
  (C84_div_neg (by decide) (by decide)).2 (by decide)

/-- The cosine is even. -/
theorem C84_cos_even {x : F192} (hx : FValid x) : F192.cos (F192.neg x) = F192.cos x := by
  rw [F192.cos, F192.cos, F192.mod2pi, F192.mod2pi, F192.abs_neg_eq hx]

private theorem sin_zero : F192.sin ZERO = pure ZERO := (F192.sinE_c _).ret (by decide +kernel)
private theorem atan_zero : F192.atan ZERO = pure ZERO := (F192.atanE_c _).ret (by decide +kernel)
private theorem asin_zero : F192.asin ZERO = pure ZERO := (F192.asinE_c _).ret (by decide +kernel)

private theorem quarter (y : F192) (b : Bool) : NegOf (F192.sinQuarter y b) (F192.sinQuarter y (!b)) := by
  rw [F192.sinQuarter, F192.sinQuarter]
  split
  · exact NegOf.bind fun _ => NegOf.bind fun r => NegOf.flag r b
  · exact NegOf.bind fun r => NegOf.flag r b

private theorem half (y : F192) (b : Bool) : NegOf (F192.sinHalf y b) (F192.sinHalf y (!b)) := by
  rw [F192.sinHalf, F192.sinHalf]
  split
  · exact NegOf.bind fun y => quarter y b
  · exact quarter y b

/-- The sine is odd. -/
theorem C84_sin_odd {x : F192} (hx : FValid x) : NegOf (F192.sin x) (F192.sin (F192.neg x)) := by
  by_cases h0 : x = ZERO
  · rw [h0, show F192.neg ZERO = ZERO by decide, sin_zero]
    exact Or.inl rfl
  rw [F192.sin, F192.sin, F192.mod2pi, F192.mod2pi, F192.abs_neg_eq hx, F192.is_neg_neg hx h0]
  refine NegOf.bind fun y => ?_
  split
  · exact NegOf.bind fun y => half y _
  · exact half y _

example : NegOf (F192.sin F192.ONE) (F192.sin (F192.neg F192.ONE)) ∧ F192.cos (F192.neg F192.ONE) = F192.cos F192.ONE :=
  ⟨C84_sin_odd (by decide), C84_cos_even (by decide)⟩

private theorem unsigned {x : F192} (hx : FValid x) (h0 : x ≠ ZERO) :
    (if F192.is_neg (F192.neg x) = true then F192.neg (F192.neg x) else F192.neg x) = if F192.is_neg x = true then F192.neg x else x := by
  rw [F192.is_neg_neg hx h0]
  cases h : F192.is_neg x
  · rw [Bool.not_false, if_pos rfl, if_neg Bool.false_ne_true]
    rcases F192.neg_neg x with h' | h'
    · exact h'
    · rw [h'] at h; exact absurd h (by decide)
  · rfl

/-- The inverse tangent is odd. -/
theorem C84_atan_odd {x : F192} (hx : FValid x) : NegOf (F192.atan x) (F192.atan (F192.neg x)) := by
  by_cases h0 : x = ZERO
  · rw [h0, show F192.neg ZERO = ZERO by decide, atan_zero]
    exact Or.inl rfl
  rw [F192.atan, F192.atan, unsigned hx h0, F192.is_neg_neg hx h0]
  generalize (if F192.is_neg x = true then F192.neg x else x) = a
  split
  · exact NegOf.bind fun _ => NegOf.bind fun _ => NegOf.bind fun r => NegOf.flag r _
  · exact NegOf.bind fun r => NegOf.flag r _

/-- the inverse tangent of 2 -/
example : NegOf (F192.atan ⟨0, 2 ^ 48 - 126⟩) (F192.atan (F192.neg ⟨0, 2 ^ 48 - 126⟩)) := C84_atan_odd (by decide)

/-- The inverse sine is odd up to the square root of 1/2 (the constant of the code). -/
theorem C84_asin_odd_partial {x : F192} (hx : FValid x) (ht : x ≠ negTiny) (h : |fval x| ≤ fval F192.ONE_OVER_SQRT_2) :
    NegOf (F192.asin x) (F192.asin (F192.neg x)) := by
  obtain ⟨-, -, n1, n2, -⟩ := C59_sign_partial hx ht
  obtain ⟨b1, b2⟩ := abs_le.1 h
  have h1 : F192.gt x F192.ONE_OVER_SQRT_2 = false := by
    rw [Bool.eq_false_iff, Ne, (C39_ops hx (show FValid F192.ONE_OVER_SQRT_2 by decide)).2.1]; exact not_lt.2 b2
  have h2 : F192.gt (F192.neg x) F192.ONE_OVER_SQRT_2 = false := by
    rw [Bool.eq_false_iff, Ne, (C39_ops n1 (show FValid F192.ONE_OVER_SQRT_2 by decide)).2.1, n2]; exact not_lt.2 (by linarith)
  by_cases h0 : x = ZERO
  · rw [h0, show F192.neg ZERO = ZERO by decide, asin_zero]
    exact Or.inl rfl
  rw [F192.asin, F192.asin, unsigned hx h0, F192.is_neg_neg hx h0, h1, h2]
  by_cases hg : F192.gt (if F192.is_neg x = true then F192.neg x else x) ONE = true
  · simp only [hg, if_true]
    exact Or.inl rfl
  · simp only [hg, if_false, Bool.false_eq_true]
    exact NegOf.bind fun r => NegOf.bind fun c => NegOf.bind fun r => NegOf.bind fun r => NegOf.flag r _

/-- the inverse sine of the largest number allowed -/
example : NegOf (F192.asin F192.ONE_OVER_SQRT_2) (F192.asin (F192.neg F192.ONE_OVER_SQRT_2)) :=
  C84_asin_odd_partial (by decide) (by decide) (le_of_eq (abs_of_pos (by
    have := ((C39_ops (x := F192.ONE_OVER_SQRT_2) (y := ZERO) (by decide) (by decide)).2.1).1 (by decide)
    rwa [F192.fval_zero] at this)))

/-- The inverse sine of 1 panics, that of -1 does not. -/
theorem C84_asin_counterexample : Panics (F192.asin F192.ONE) ∧ ∃ z, F192.asin (F192.neg F192.ONE) = pure z :=
  ⟨⟨_, (F192.asinE_c _).panics (p := .explicit) (by decide +kernel)⟩,
    ⟨_, (F192.asinE_c _).ret (z := ⟨243199502877843814362064327646494186837, 281474976710529⟩) (by decide +kernel)⟩⟩

end Props
end Hmath
