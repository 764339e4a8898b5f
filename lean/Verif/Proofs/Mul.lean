import Verif.Proofs.CompShift

/-! # Multiplication -/

namespace Hmath
namespace UBig

/-- column `p` is at most `f p` times `2^32 - 1` -/
def Bd : (Nat → Nat) → List Nat → Prop
  | _, [] => True
  | f, r :: rs => r ≤ f 0 * U32MAX ∧ Bd (fun p => f (p + 1)) rs

theorem Bd.mono {f g : Nat → Nat} {l : List Nat} (h : Bd f l) (hfg : ∀ p, f p ≤ g p) : Bd g l := by
  induction l generalizing f g with
  | nil => trivial
  | cons r rs ih =>
    refine ⟨h.1.trans (Nat.mul_le_mul_right _ (hfg 0)), ih h.2 (fun p => hfg (p + 1))⟩

theorem Bd.const {c : Nat} {l : List Nat} (h : Bd (fun _ => c) l) : ∀ z ∈ l, z ≤ c * U32MAX := by
  induction l with
  | nil => simp
  | cons r rs ih =>
    intro z hz
    rw [List.mem_cons] at hz
    rcases hz with rfl | hz
    · exact h.1
    · exact ih h.2 z hz

theorem Bd.zero (f : Nat → Nat) (n : Nat) : Bd f (List.replicate n 0) := by
  induction n generalizing f with
  | zero => trivial
  | succ n ih => exact ⟨Nat.zero_le _, ih _⟩

theorem mulInner_spec (x : Nat) (hx : x < B32) (ys : List Nat) (hy : Limbs ys) (f : Nat → Nat)
    (hf0 : f 0 ≤ 1001) (hf : ∀ p, f (p + 1) ≤ 1000) (res : List Nat)
    (hl : ys.length + 1 ≤ res.length) (hb : Bd f res) :
    ∃ res', mulInner x ys res = pure res' ∧ res'.length = res.length ∧
      val res' = val res + x * val ys ∧
      Bd (fun p => f p + (if p < ys.length then 1 else 0)
        + (if 1 ≤ p ∧ p ≤ ys.length then 1 else 0)) res' := by
  induction ys generalizing f res with
  | nil =>
    refine ⟨res, by rw [mulInner], rfl, by simp, hb.mono (fun p => by omega)⟩
  | cons y ys ih =>
    match res, hl, hb with
    | [], hl, _ => simp at hl
    | [_], hl, _ => simp at hl
    | r0 :: r1 :: rs, hl, hb =>
      rw [limbs_cons] at hy
      obtain ⟨hb0, hb1, hb2⟩ := hb
      have hf1 : f 1 ≤ 1000 := hf 0
      replace hb1 : r1 ≤ f 1 * U32MAX := hb1
      have hprod : x * y ≤ U32MAX * U32MAX := Nat.mul_le_mul (by omega) (by omega)
      have hhi : x * y / B32 ≤ U32MAX := by omega
      have hlo : x * y % B32 ≤ U32MAX := by omega
      have e0 : f 0 * U32MAX ≤ 1001 * U32MAX := Nat.mul_le_mul_right _ hf0
      have e1 : f 1 * U32MAX ≤ 1000 * U32MAX := Nat.mul_le_mul_right _ hf1
      rw [mulInner, u64Mul, uMul_eq (by omega), pure_bind, u64Add, uAdd_eq (by omega), pure_bind,
        uAdd_eq (by omega), pure_bind]
      obtain ⟨res', h1, h2, h3, h4⟩ := ih hy.2
        (fun p => f (p + 1) + (if p = 0 then 1 else 0))
        (by simp; omega) (fun p => by simpa using hf (p + 1)) ((r1 + x * y / B32) :: rs)
        (by simp at hl ⊢; omega)
        ⟨by simp; omega, hb2.mono (fun p => by simp)⟩
      rw [h1, pure_bind]
      refine ⟨_, rfl, by simpa using h2, ?_, ?_, ?_⟩
      · simp only [val_cons, h3]
        have : x * (y + B32 * val ys) = x * y + B32 * (x * val ys) := by ring
        rw [this]; omega
      · simp; omega
      · refine h4.mono (fun p => ?_)
        simp only [List.length_cons]
        split_ifs <;> omega

/-- few outer iterations -/
theorem mulOuter_specA (xs ys : List Nat) (hx : Limbs xs) (hy : Limbs ys) (c : Nat)
    (hc : c + 2 * xs.length ≤ 1000) (res : List Nat) (hl : res.length = xs.length + ys.length)
    (hb : Bd (fun _ => c) res) :
    ∃ r, mulOuter xs ys res = pure r ∧ r.length = res.length ∧
      val r = val res + val xs * val ys ∧ ∀ z ∈ r, z ≤ 1000 * U32MAX := by
  induction xs generalizing c res with
  | nil =>
    refine ⟨res, by rw [mulOuter], rfl, by simp, fun z hz => ?_⟩
    have := hb.const z hz
    exact this.trans (Nat.mul_le_mul_right _ (by omega))
  | cons x xs ih =>
    rw [limbs_cons] at hx
    simp only [List.length_cons] at hc hl
    obtain ⟨res', h1, h2, h3, h4⟩ := mulInner_spec x hx.1 ys hy (fun _ => c) (by omega)
      (fun _ => by omega) res
      (by omega) hb
    rw [mulOuter, h1, pure_bind]
    cases res' with
    | nil => simp at h2; omega
    | cons r rs =>
      have hb' : Bd (fun _ => c + 2) (r :: rs) := h4.mono (fun p => by split_ifs <;> omega)
      obtain ⟨t, k1, k2, k3, k4⟩ := ih hx.2 (c + 2) (by omega) rs (by simp at h2; omega) hb'.2
      simp only [k1, pure_bind]
      refine ⟨_, rfl, by simp at h2 ⊢; omega, ?_, ?_⟩
      · rw [val_cons] at h3
        simp only [val_cons, k3]
        have : (x + B32 * val xs) * val ys = x * val ys + B32 * (val xs * val ys) := by ring
        rw [this]; omega
      · intro z hz
        rw [List.mem_cons] at hz
        rcases hz with rfl | hz
        · exact hb'.1.trans (Nat.mul_le_mul_right _ (by simp only; omega))
        · exact k4 z hz

/-- few inner iterations -/
theorem mulOuter_specB (xs ys : List Nat) (hx : Limbs xs) (hy : Limbs ys)
    (hc : ys.length ≤ 64) (res : List Nat) (hl : res.length = xs.length + ys.length)
    (hb : Bd (fun p => 2 * (ys.length - p) - 1) res) :
    ∃ r, mulOuter xs ys res = pure r ∧ r.length = res.length ∧
      val r = val res + val xs * val ys ∧ ∀ z ∈ r, z ≤ 1000 * U32MAX := by
  induction xs generalizing res with
  | nil =>
    refine ⟨res, by rw [mulOuter], rfl, by simp, fun z hz => ?_⟩
    exact (hb.mono (g := fun _ => 1000) (fun p => by omega)).const z hz
  | cons x xs ih =>
    rw [limbs_cons] at hx
    simp only [List.length_cons] at hl
    obtain ⟨res', h1, h2, h3, h4⟩ := mulInner_spec x hx.1 ys hy (fun p => 2 * (ys.length - p) - 1)
      (by omega) (fun _ => by omega) res (by omega) hb
    rw [mulOuter, h1, pure_bind]
    cases res' with
    | nil => simp at h2; omega
    | cons r rs =>
      obtain ⟨h40, h41⟩ := h4
      obtain ⟨t, k1, k2, k3, k4⟩ := ih hx.2 rs (by simp at h2; omega)
        (h41.mono (fun p => by simp only; split_ifs <;> omega))
      simp only [k1, pure_bind]
      refine ⟨_, rfl, by simp at h2 ⊢; omega, ?_, ?_⟩
      · rw [val_cons] at h3
        simp only [val_cons, k3]
        have : (x + B32 * val xs) * val ys = x * val ys + B32 * (val xs * val ys) := by ring
        rw [this]; omega
      · intro z hz
        rw [List.mem_cons] at hz
        rcases hz with rfl | hz
        · refine h40.trans (Nat.mul_le_mul_right _ ?_)
          simp only
          split_ifs <;> omega
        · exact k4 z hz

theorem mulSchool_eq {a b : UBig} (ha : Valid a) (hb : Valid b)
    (h : a.length ≤ 64 ∨ b.length ≤ 64) : mulSchool a b = pure (ofNat (val a * val b)) := by
  have h1 : ∃ r, mulOuter a b (List.replicate (a.length + b.length) 0) = pure r ∧
      r.length = (List.replicate (a.length + b.length) 0).length ∧
      val r = val (List.replicate (a.length + b.length) 0) + val a * val b ∧
      ∀ z ∈ r, z ≤ 1000 * U32MAX := by
    rcases h with h | h
    · exact mulOuter_specA a b ha.limbs hb.limbs 0 (by omega) _ (by simp) (Bd.zero _ _)
    · exact mulOuter_specB a b ha.limbs hb.limbs h _ (by simp) (Bd.zero _ _)
  obtain ⟨r, h1, h2, h3, h4⟩ := h1
  rw [val_replicate_zero, Nat.zero_add] at h3
  have ha0 := List.length_pos_iff.mpr ha.ne
  have hr : r ≠ [] := by intro hh; subst hh; simp at h2; omega
  obtain ⟨t, k1, k2, k3, k4⟩ := v64_to_v32_spec' hr (fun z hz => (h4 z hz).trans (by omega))
  rw [mulSchool, h1, pure_bind, k1, pure_bind, remove_suffix_0_eq _ k2, k3, h3]
  intro hh; subst hh
  have := List.length_pos_iff.mpr hr
  simp at k4; omega

theorem mul_eq {a b : UBig} (ha : Valid a) (hb : Valid b) :
    mul a b = pure (ofNat (val a * val b)) := by
  induction hn : a.length + b.length using Nat.strong_induction_on generalizing a b with
  | _ n ih =>
    rw [mul]
    by_cases h : a.length > 64 ∧ b.length > 64
    · rw [if_pos h]
      generalize hm : min (a.length / 2) (b.length / 2) = m
      have hm1 : m ≤ a.length / 2 := by omega
      have hm2 : m ≤ b.length / 2 := by omega
      have hm3 : 32 ≤ m := by omega
      simp only [shift_right_eq ha, shift_right_eq hb, slice_right_eq ha (n := m) (by omega),
        slice_right_eq hb (n := m) (by omega), pure_bind]
      -- lengths of the parts
      have hP : 0 < B32 ^ m := Nat.pow_pos (by omega)
      have hal := val_lt ha.limbs
      have hbl := val_lt hb.limbs
      have hx1 : val a / B32 ^ m < B32 ^ (a.length - m) := by
        rw [Nat.div_lt_iff_lt_mul hP, ← pow_add, Nat.sub_add_cancel (by omega)]; exact hal
      have hy1 : val b / B32 ^ m < B32 ^ (b.length - m) := by
        rw [Nat.div_lt_iff_lt_mul hP, ← pow_add, Nat.sub_add_cancel (by omega)]; exact hbl
      have hx0 : val a % B32 ^ m < B32 ^ m := Nat.mod_lt _ hP
      have hy0 : val b % B32 ^ m < B32 ^ m := Nat.mod_lt _ hP
      have key : ∀ p q : Nat, p < B32 ^ (a.length - m + 1) → q < B32 ^ (b.length - m + 1) →
          mul (ofNat p) (ofNat q) = pure (ofNat (p * q)) := by
        intro p q hp hq
        have hpl := (length_ofNat_le_iff (n := p) (k := a.length - m + 1) (by omega)).mpr hp
        have hql := (length_ofNat_le_iff (n := q) (k := b.length - m + 1) (by omega)).mpr hq
        have := ih ((ofNat p).length + (ofNat q).length) (by omega) (valid_ofNat p) (valid_ofNat q) rfl
        simpa using this
      have pa : B32 ^ (a.length - m) ≤ B32 ^ (a.length - m + 1) := Nat.pow_le_pow_right (by omega) (by omega)
      have pb : B32 ^ (b.length - m) ≤ B32 ^ (b.length - m + 1) := Nat.pow_le_pow_right (by omega) (by omega)
      have pma : B32 ^ m ≤ B32 ^ (a.length - m) := Nat.pow_le_pow_right (by omega) (by omega)
      have pmb : B32 ^ m ≤ B32 ^ (b.length - m) := Nat.pow_le_pow_right (by omega) (by omega)
      have sa : B32 ^ (a.length - m + 1) = B32 ^ (a.length - m) * B32 := pow_succ _ _
      have sb : B32 ^ (b.length - m + 1) = B32 ^ (b.length - m) * B32 := pow_succ _ _
      rw [key _ _ (by omega) (by omega), pure_bind, key _ _ (by omega) (by omega), pure_bind,
        add_eq (valid_ofNat _) (valid_ofNat _), pure_bind, add_eq (valid_ofNat _) (valid_ofNat _), pure_bind]
      simp only [val_ofNat]
      rw [key _ _ (by omega) (by omega), pure_bind]
      have e1 : val a = B32 ^ m * (val a / B32 ^ m) + val a % B32 ^ m := (Nat.div_add_mod _ _).symm
      have e2 : val b = B32 ^ m * (val b / B32 ^ m) + val b % B32 ^ m := (Nat.div_add_mod _ _).symm
      generalize val a / B32 ^ m = x1 at *
      generalize val a % B32 ^ m = x0 at *
      generalize val b / B32 ^ m = y1 at *
      generalize val b % B32 ^ m = y0 at *
      have ez : (x1 + x0) * (y1 + y0) = x1 * y1 + x0 * y0 + (x1 * y0 + x0 * y1) := by ring
      rw [sub_eq (valid_ofNat _) (valid_ofNat _) (by simp only [val_ofNat]; omega), pure_bind]
      simp only [val_ofNat]
      rw [sub_eq (valid_ofNat _) (valid_ofNat _) (by simp only [val_ofNat]; omega), pure_bind]
      simp only [val_ofNat]
      rw [shift_left_eq (valid_ofNat _), shift_left_eq (valid_ofNat _),
        add_eq (valid_ofNat _) (valid_ofNat _), pure_bind,
        add_eq (valid_ofNat _) (valid_ofNat _)]
      simp only [val_ofNat]
      congr 2
      rw [show (x1 + x0) * (y1 + y0) - x1 * y1 - x0 * y0 = x1 * y0 + x0 * y1 by omega, e1, e2, two_mul, pow_add]
      ring
    · rw [if_neg h]
      exact mulSchool_eq ha hb (by omega)

theorem mul_mut_eq {a b : UBig} (ha : Valid a) (hb : Valid b) :
    mul_mut a b = pure (ofNat (val a * val b)) := mul_eq ha hb

theorem mulU32Loop_spec (o : Nat) (ho : o < B32) (xs : List Nat) (hx : Limbs xs) (c : Nat)
    (hc : c < B32) :
    ∃ t c', mulU32Loop o xs c = pure (t, c') ∧ Limbs t ∧ t.length = xs.length ∧ c' < B32 ∧
      val t + B32 ^ xs.length * c' = val xs * o + c := by
  induction xs generalizing c with
  | nil => exact ⟨[], c, by rw [mulU32Loop], limbs_nil, rfl, hc, by simp⟩
  | cons x xs ih =>
    rw [limbs_cons] at hx
    have hxo : x * o ≤ U32MAX * U32MAX := Nat.mul_le_mul (by omega) (by omega)
    have key : ∀ s, s = x * o + c → ∃ t c', mulU32Loop o xs (s / B32) = pure (t, c') ∧
        Limbs (s % B32 :: t) ∧ (s % B32 :: t).length = (x :: xs).length ∧ c' < B32 ∧
        val (s % B32 :: t) + B32 ^ (x :: xs).length * c' = val (x :: xs) * o + c := by
      intro s hs
      obtain ⟨t, c', h1, h2, h3, h4, h5⟩ := ih hx.2 (s / B32) (by omega)
      refine ⟨t, c', h1, limbs_cons.mpr ⟨by omega, h2⟩, by simp [h3], h4, ?_⟩
      simp only [val_cons, List.length_cons, pow_succ]
      have e1 : (x + B32 * val xs) * o = x * o + B32 * (val xs * o) := by ring
      have e2 : B32 ^ xs.length * B32 * c' = B32 * (B32 ^ xs.length * c') := by ring
      rw [e1, e2]
      have : s % B32 + B32 * (s / B32) = s := Nat.mod_add_div _ _
      omega
    obtain ⟨t, c', h1, h2⟩ := key _ rfl
    refine ⟨_, c', ?_, h2⟩
    rw [mulU32Loop]
    by_cases hov : x * o < B32
    · rw [if_pos hov, Nat.mod_eq_of_lt hc]
      by_cases h2 : x * o + c < B32
      · rw [if_pos h2]
        rw [Nat.div_eq_of_lt h2] at h1
        rw [h1, pure_bind, Nat.mod_eq_of_lt h2]
      · rw [if_neg h2, u64Add, uAdd_eq (by omega), pure_bind, h1, pure_bind, Nat.mod_mod]
    · rw [if_neg hov, u64Mul, uMul_eq (by omega), pure_bind, u64Add, uAdd_eq (by omega), pure_bind, h1,
        pure_bind, Nat.mod_mod]

theorem mul_u32_mut_eq {a : UBig} {o : Nat} (ha : Valid a) (ho : o < B32) :
    mul_u32_mut a o = pure (ofNat (val a * o)) := by
  obtain ⟨t, c, h1, h2, h3, h4, h5⟩ := mulU32Loop_spec o ho a ha.limbs 0 (by omega)
  have ha0 := List.length_pos_iff.mpr ha.ne
  have ht : t ≠ [] := by intro hh; subst hh; simp at h3; omega
  rw [mul_u32_mut, h1, pure_bind]
  by_cases hc : c > 0
  · simp only [if_pos hc]
    rw [remove_suffix_0_eq (by simp), val_append]
    · congr 2; rw [h3, Nat.mod_eq_of_lt h4]; simpa using h5
    · rw [limbs_append]; exact ⟨h2, by simp [limbs_nil]; omega⟩
  · simp only [if_neg hc]
    have : c = 0 := by omega
    subst this
    rw [remove_suffix_0_eq ht h2]
    congr 2

theorem mul_u32_eq {a : UBig} {o : Nat} (ha : Valid a) (ho : o < B32) :
    mul_u32 a o = pure (ofNat (val a * o)) := mul_u32_mut_eq ha ho

theorem pow2_32_lt {e : Nat} : 2 ^ (e % 32) < B32 := by
  have : 2 ^ (e % 32) < 2 ^ 32 := Nat.pow_lt_pow_right (by omega) (Nat.mod_lt _ (by omega))
  omega

theorem pow2_split (e : Nat) : 2 ^ (e % 32) * B32 ^ (e / 32) = 2 ^ e := by
  have : B32 = 2 ^ 32 := by norm_num
  rw [this, ← pow_mul, ← pow_add, Nat.mod_add_div]

theorem mul_pow2_mut_eq {a : UBig} {e : Nat} (ha : Valid a) :
    mul_pow2_mut a e = pure (ofNat (val a * 2 ^ e)) := by
  have h32 := pow2_32_lt (e := e)
  rw [mul_pow2_mut, uShl_eq (Nat.mod_lt _ (by omega)), pure_bind, Nat.one_mul, Nat.mod_eq_of_lt (by omega),
    mul_u32_mut_eq ha h32, pure_bind, shift_left_mut_eq (valid_ofNat _), val_ofNat, Nat.mul_assoc,
    pow2_split]

theorem mul_pow2_eq {a : UBig} {e : Nat} (ha : Valid a) :
    mul_pow2 a e = pure (ofNat (val a * 2 ^ e)) := mul_pow2_mut_eq ha

theorem pow2_eq (e : Nat) : pow2 e = pure (ofNat (2 ^ e)) := by
  have h32 := pow2_32_lt (e := e)
  rw [pow2, uShl_eq (Nat.mod_lt _ (by omega)), pure_bind, Nat.one_mul, Nat.mod_eq_of_lt (by omega)]
  congr 1
  have hv : val (List.replicate (e / 32) 0 ++ [2 ^ (e % 32)]) = 2 ^ e := by
    rw [val_append, val_replicate_zero]; simp; rw [Nat.mul_comm]; exact pow2_split e
  rw [← hv]
  apply Valid.eq_ofNat
  refine ⟨by simp, ?_, fun _ => by simp⟩
  have : Limbs (List.replicate (e / 32) 0 ++ [2 ^ (e % 32)]) :=
    limbs_append.mpr ⟨limbs_replicate_zero _, by simp [limbs_nil]; omega⟩
  exact this

theorem exp2_eq (e : Nat) : exp2 e = pure (ofNat (2 ^ e)) := by
  have h32 := pow2_32_lt (e := e)
  have h : e % 32 % B32 = e % 32 := by omega
  rw [exp2, h, uShl_eq (Nat.mod_lt _ (by omega)), pure_bind, Nat.one_mul, Nat.mod_eq_of_lt (by omega),
    from_u32_eq h32, shift_left_eq (valid_ofNat _), val_ofNat, pow2_split]

end UBig
end Hmath
