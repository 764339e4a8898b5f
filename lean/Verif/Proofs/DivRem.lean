import Verif.Proofs.Mul

/-! # Division, remainder, powers, logarithm, gcd -/

namespace Hmath
namespace UBig

/-! ### division by a limb -/

theorem divU32Loop_spec (o : Nat) (ho0 : 0 < o) (ho : o < B32) (xs : List Nat) (hx : Limbs xs)
    (r : Nat) (hr : r < o) :
    ∃ t r', divU32Loop o xs (r * B32) = pure t ∧ Limbs t ∧ t.length = xs.length ∧ r' < o ∧
      val t.reverse * o + r' = r * B32 ^ xs.length + val xs.reverse := by
  induction xs generalizing r with
  | nil => exact ⟨[], r, by rw [divU32Loop], limbs_nil, rfl, hr, by simp⟩
  | cons x xs ih =>
    rw [limbs_cons] at hx
    have hrB : r * B32 ≤ (o - 1) * B32 := Nat.mul_le_mul_right _ (by omega)
    have hcur : x + r * B32 < o * B32 := by
      have : o * B32 = (o - 1) * B32 + B32 := by
        obtain ⟨k, rfl⟩ : ∃ k, o = k + 1 := ⟨o - 1, by omega⟩
        simp; ring
      omega
    have hoB : o * B32 ≤ U32MAX * B32 := Nat.mul_le_mul_right _ (by omega)
    have hq : (x + r * B32) / o < B32 := by
      rw [Nat.div_lt_iff_lt_mul ho0]; omega
    have hr' : (x + r * B32) % o < o := Nat.mod_lt _ ho0
    obtain ⟨t, r', h1, h2, h3, h4, h5⟩ := ih hx.2 _ hr'
    rw [divU32Loop, u64Add, uAdd_eq (by omega), pure_bind, uDiv_eq (by omega), pure_bind,
      uRem_eq (by omega), pure_bind, uShl_eq (by omega), pure_bind]
    rw [show (x + r * B32) % o * 2 ^ 32 % 2 ^ 64 = (x + r * B32) % o * B32 by
      rw [Nat.mod_eq_of_lt] <;> omega]
    rw [h1, pure_bind]
    refine ⟨_, r', rfl, limbs_cons.mpr ⟨by omega, h2⟩, by simp [h3], h4, ?_⟩
    rw [val_reverse_cons, val_reverse_cons, h3, Nat.mod_eq_of_lt hq, List.length_cons, pow_succ]
    have e := Nat.div_add_mod (x + r * B32) o
    generalize (x + r * B32) / o = q at *
    generalize (x + r * B32) % o = m at *
    generalize B32 ^ xs.length = P at *
    have : (val t.reverse + P * q) * o + r' = (val t.reverse * o + r') + P * (o * q) := by ring
    rw [this, h5]
    have : m * P + val xs.reverse + P * (o * q) = P * (o * q + m) + val xs.reverse := by ring
    rw [this, e]; ring

theorem div_u32_mut_eq {a : UBig} {o : Nat} (ha : Valid a) (ho : o < B32) (ho0 : 0 < o) :
    div_u32_mut a o = pure (ofNat (val a / o)) := by
  obtain ⟨t, r', h1, h2, h3, h4, h5⟩ := divU32Loop_spec o ho0 ho a.reverse (limbs_reverse.mpr ha.limbs)
    0 ho0
  simp only [Nat.zero_mul, Nat.zero_add, List.reverse_reverse] at h1 h5
  have ha0 := List.length_pos_iff.mpr ha.ne
  have ht : t.reverse ≠ [] := by
    intro hh; rw [List.reverse_eq_nil_iff] at hh; subst hh; simp at h3; omega
  rw [div_u32_mut, h1, pure_bind, remove_suffix_0_eq ht (limbs_reverse.mpr h2)]
  congr 2
  symm
  rw [← h5, Nat.mul_comm, Nat.mul_add_div ho0, Nat.div_eq_of_lt h4, Nat.add_zero]

theorem div_u32_eq {a : UBig} {o : Nat} (ha : Valid a) (ho : o < B32) (ho0 : 0 < o) :
    div_u32 a o = pure (ofNat (val a / o)) := div_u32_mut_eq ha ho ho0

theorem div_u32_mut_zero {a : UBig} (ha : Valid a) : div_u32_mut a 0 = throw .divZero := by
  rw [div_u32_mut]
  have : a.reverse ≠ [] := by simpa using ha.ne
  cases h : a.reverse with
  | nil => exact absurd h this
  | cons x xs =>
    have hx : x < B32 := ha.limbs x (by rw [← List.mem_reverse, h]; simp)
    rw [divU32Loop, u64Add, uAdd_eq (by omega), pure_bind]; rfl

/-! ### the pieces of `div` -/

theorem snoc2 {a : List Nat} (h : 2 ≤ a.length) : ∃ p y x, a = p ++ [y, x] := by
  have h1 : (a.drop (a.length - 2)).length = 2 := by simp; omega
  match hd : a.drop (a.length - 2), h1 with
  | [y, x], _ => exact ⟨a.take (a.length - 2), y, x, by rw [← hd, List.take_append_drop]⟩

theorem top2_eq {a : UBig} (ha : Valid a) (h : 2 ≤ a.length) :
    top2 a = pure (val a / B32 ^ (a.length - 2)) := by
  obtain ⟨p, y, x, rfl⟩ := snoc2 h
  have hl := ha.limbs'
  rw [limbs_append] at hl
  simp only [limbs_cons] at hl
  rw [← drop_spec ha.limbs]
  simp only [top2, List.length_append, List.length_cons, List.length_nil]
  rw [uSub_eq (by omega), pure_bind, idx_some (x := x), pure_bind, uSub_eq (by omega), pure_bind,
    idx_some (x := y), pure_bind, uShl_eq (by omega), pure_bind, Nat.mod_eq_of_lt (by omega),
    u64Add, uAdd_eq (by omega)]
  · congr 1
    simp; omega
  · simp
  · rw [List.getElem?_append_right (by omega)]; simp

theorem div_approx_eq {d : List Nat} {dv : Nat} (hl : d.length = 5) (hd : Limbs d)
    (htop : B32 ^ 4 ≤ val d) (h1 : B32 ≤ dv) (h2 : dv < B64) :
    div_approx d dv = pure (ofNat (val d / dv)) := by
  match d, hl with
  | [d0, d1, d2, d3, d4], _ =>
    simp only [limbs_cons] at hd
    obtain ⟨l0, l1, l2, l3, l4, _⟩ := hd
    have hv : val [d0, d1, d2, d3, d4] = (d0 + B32 * d1) + B64 * (d2 + B32 * d3 + B64 * d4) := by
      simp; ring
    rw [hv] at htop ⊢
    generalize hc : d2 + B32 * d3 + B64 * d4 = c at *
    generalize hlo : d0 + B32 * d1 = lo at *
    have hq1 : c / dv < B64 := by
      rw [Nat.div_lt_iff_lt_mul (by omega)]
      have : B64 * B32 ≤ B64 * dv := Nat.mul_le_mul_left _ h1
      omega
    have hr : c % dv < dv := Nat.mod_lt _ (by omega)
    have hq1' : 1 ≤ c / dv := by
      rw [Nat.one_le_div_iff (by omega)]; omega
    have hq2 : (c % dv * B64 + lo) / dv < B64 := by
      rw [Nat.div_lt_iff_lt_mul (by omega)]
      have : (c % dv + 1) * B64 ≤ dv * B64 := Nat.mul_le_mul_right _ hr
      have e : B64 * dv = dv * B64 := Nat.mul_comm _ _
      omega
    have hfin : (lo + B64 * c) / dv = (c % dv * B64 + lo) / dv + B64 * (c / dv) := by
      have e := Nat.div_add_mod c dv
      have : lo + B64 * c = (c % dv * B64 + lo) + dv * (B64 * (c / dv)) := by
        calc lo + B64 * c = lo + B64 * (dv * (c / dv) + c % dv) := by rw [e]
          _ = _ := by ring
      rw [this, Nat.add_mul_div_left _ _ (by omega)]
    rw [hfin]
    simp only [div_approx, idx]
    simp only [List.getElem?_cons_succ, List.getElem?_cons_zero, pure_bind]
    rw [uShl_eq (by omega), pure_bind, uShl_eq (by omega), pure_bind, u128Add, uAdd_eq (by omega),
      pure_bind, uAdd_eq (by omega), pure_bind]
    rw [show d4 * 2 ^ 64 % 2 ^ 128 + d3 * 2 ^ 32 % 2 ^ 128 + d2 = c by omega]
    rw [uDiv_eq (by omega), pure_bind, uRem_eq (by omega), pure_bind, uShl_eq (by omega), pure_bind,
      uShl_eq (by omega), pure_bind, uAdd_eq (by omega), pure_bind, uAdd_eq (by omega), pure_bind,
      uDiv_eq (by omega), pure_bind]
    rw [show c % dv * 2 ^ 64 % 2 ^ 128 + (d1 * 2 ^ 32 % 2 ^ 128 + d0) = c % dv * B64 + lo by omega]
    rw [Nat.mod_eq_of_lt hq1, Nat.mod_eq_of_lt hq2]
    generalize (c % dv * B64 + lo) / dv = q2 at *
    generalize c / dv = q1 at *
    obtain ⟨t, k1, k2, k3, k4⟩ : ∃ t, v64_to_v32 [q2, 0, q1] = pure t ∧ Limbs t ∧
        val t = q2 + B64 * q1 ∧ (t.length = 3 ∨ (t.length = 4 ∧ B32 ≤ q1)) := by
      have hlast : ∃ t, v64_to_v32 [q1] = pure t ∧ Limbs t ∧ val t = q1 ∧
          (t.length = 1 ∨ (t.length = 2 ∧ B32 ≤ q1)) := by
        rw [v64_to_v32]
        by_cases h : q1 ≥ B32
        · rw [if_pos h]
          exact ⟨_, rfl, by simp [limbs_nil]; omega, by simp; omega, by simp; omega⟩
        · rw [if_neg h]
          exact ⟨_, rfl, by simp [limbs_nil]; omega, by simp; omega, by simp⟩
      obtain ⟨t, k1, k2, k3, k4⟩ := hlast
      rw [v64_to_v32]
      by_cases h : q2 ≥ B32
      · rw [if_pos h, u64Add, uAdd_eq (by omega), pure_bind, v64_to_v32, if_neg (by omega), k1]
        refine ⟨_, rfl, ?_, ?_, ?_⟩
        · simp only [limbs_cons]; exact ⟨by omega, by omega, k2⟩
        · simp only [val_cons, k3]; omega
        · simp only [List.length_cons]; omega
      · rw [if_neg h, v64_to_v32, if_neg (by omega), k1]
        refine ⟨_, rfl, ?_, ?_, ?_⟩
        · simp only [limbs_cons]; exact ⟨by omega, by omega, k2⟩
        · simp only [val_cons, k3]; omega
        · simp only [List.length_cons]; omega
    rw [k1]
    congr 1
    rw [← k3]
    apply Valid.eq_ofNat
    apply valid_of_val_ge (by intro hh; subst hh; simp at k4) k2
    intro _
    rw [k3]
    rcases k4 with k4 | ⟨k4, k5⟩
    · rw [k4]; norm_num; omega
    · rw [k4]; norm_num; omega

/-! ### the arithmetic behind the estimates -/

theorem quot_step {A Bv q : Nat} (hB : 0 < Bv) (h : Bv * q ≤ A) : q + (A - Bv * q) / Bv = A / Bv := by
  obtain ⟨r, rfl⟩ := Nat.exists_eq_add_of_le h
  rw [Nat.add_sub_cancel_left, Nat.mul_add_div hB]

/-- `div` on the recursion: one refinement step -/
theorem div_step {a b : UBig} {q : Nat} (_hb : Valid b) (hb0 : 0 < val b) (_ha : Valid a)
    (hq : val b * q ≤ val a) (hq0 : 0 < q)
    (ih : ∀ x : Nat, x < val a → div (ofNat x) b = pure (ofNat (x / val b))) :
    (do let t ← div (ofNat (val a - val b * q)) b; add (ofNat q) t) = pure (ofNat (val a / val b)) := by
  have hlt : val a - val b * q < val a := by
    have : 0 < val b * q := Nat.mul_pos hb0 hq0
    omega
  rw [ih _ hlt, pure_bind, add_eq (valid_ofNat _) (valid_ofNat _)]
  simp only [val_ofNat]
  rw [quot_step hb0 hq]

theorem div_eq {a b : UBig} (ha : Valid a) (hb : Valid b) (hb0 : 0 < val b) :
    div a b = pure (ofNat (val a / val b)) := by
  induction hn : val a using Nat.strong_induction_on generalizing a with
  | _ n ih =>
    replace ih : ∀ x : Nat, x < val a → div (ofNat x) b = pure (ofNat (x / val b)) := by
      intro x hx
      have := ih x (by omega) (valid_ofNat x) (by simp)
      simpa using this
    rw [← hn]; clear hn n
    have hApos : ∀ k, B32 ^ k > 0 := fun k => Nat.pow_pos (by omega)
    rw [div]
    by_cases c1 : a.length < b.length
    · rw [if_pos c1, Nat.div_eq_of_lt (val_lt_of_length_lt ha hb c1), zero, ofNat_zero]
    rw [if_neg c1]
    by_cases c2 : a.length < 5 ∧ b.length < 5
    · have e : B32 ^ 4 = B128 := by norm_num
      have h1 := (length_iff_val ha (k := 4) (by omega)).mp (by omega)
      have h2 := (length_iff_val hb (k := 4) (by omega)).mp (by omega)
      rw [e] at h1 h2
      rw [if_pos c2, to_u128_eq ha, pure_bind, if_pos h1, unwrapR_ok, pure_bind, to_u128_eq hb, pure_bind,
        if_pos h2, unwrapR_ok, pure_bind, uDiv_eq (by omega), pure_bind, from_u128_eq]
      exact lt_of_le_of_lt (Nat.div_le_self _ _) h1
    rw [if_neg c2]
    by_cases c3 : b.length = 1
    · rcases hb.cases1 with ⟨h, _⟩ | ⟨x, hx, h1, h2⟩
      · omega
      · rw [if_pos c3]
        subst hx
        rw [idx_zero_cons, pure_bind, h2, div_u32_eq ha h1 (by omega)]
    rw [if_neg c3]
    have hb1 := List.length_pos_iff.mpr hb.ne
    have hb2 : 2 ≤ b.length := by omega
    have hO : B32 ^ (b.length - 1) ≤ val b := hb.val_ge (by omega)
    have hOt : val b < B32 ^ b.length := val_lt hb.limbs
    have ePb : B32 ^ b.length = B32 ^ (b.length - 2) * B64 := by
      rw [show B64 = B32 ^ 2 by norm_num, ← pow_add]; congr 1; omega
    have ePb' : B32 ^ (b.length - 1) = B32 ^ (b.length - 2) * B32 := by
      rw [← pow_succ]; congr 1; omega
    have hPo := hApos (b.length - 2)
    -- the two leading limbs of the divisor
    have o_lo : B32 ≤ val b / B32 ^ (b.length - 2) := by
      rw [Nat.le_div_iff_mul_le hPo, Nat.mul_comm, ← ePb']; exact hO
    have o_hi : val b / B32 ^ (b.length - 2) < B64 := by
      rw [Nat.div_lt_iff_lt_mul hPo, Nat.mul_comm, ← ePb]; exact hOt
    have o_le : val b / B32 ^ (b.length - 2) * B32 ^ (b.length - 2) ≤ val b := Nat.div_mul_le_self _ _
    have o_gt : val b < (val b / B32 ^ (b.length - 2) + 1) * B32 ^ (b.length - 2) := by
      have := Nat.lt_succ_iff.mpr (le_refl (val b / B32 ^ (b.length - 2)))
      rw [Nat.lt_succ_iff] at this
      exact (Nat.div_lt_iff_lt_mul hPo).mp (Nat.lt_succ_self _)
    by_cases c4 : a.length > b.length
    · rw [if_pos c4, top2_eq hb hb2, pure_bind]
      have ha5 : 5 ≤ a.length := by omega
      rw [uSub_eq ha5, pure_bind, slice_eq (by omega) (le_refl _), pure_bind, List.take_length]
      have hA : B32 ^ (a.length - 1) ≤ val a := ha.val_ge (by omega)
      have hPs := hApos (a.length - 5)
      generalize ho2 : val b / B32 ^ (b.length - 2) = o2 at *
      have hda : Valid (a.drop (a.length - 5)) := ha.drop (by omega)
      have hdl : (a.drop (a.length - 5)).length = 5 := by simp; omega
      have hT : val (a.drop (a.length - 5)) = val a / B32 ^ (a.length - 5) := drop_spec ha.limbs _
      generalize hd : a.drop (a.length - 5) = sa at *
      have hTle : val sa * B32 ^ (a.length - 5) ≤ val a := by rw [hT]; exact Nat.div_mul_le_self _ _
      have hTge : B32 ^ 4 ≤ val sa := by
        rw [hT, Nat.le_div_iff_mul_le hPs, ← pow_add]
        rwa [show 4 + (a.length - 5) = a.length - 1 by omega]
      -- approx1
      have happ1 : divApprox1 sa o2 = pure (ofNat (val sa / (o2 + 1))) := by
        rw [divApprox1]
        by_cases hm : o2 = U64MAX
        · rw [if_pos hm, slice_eq (by omega) (le_refl _), List.take_length]
          have hv : Valid (sa.drop 2) := hda.drop (by omega)
          congr 1
          rw [show o2 + 1 = B32 ^ 2 by rw [hm]; norm_num, ← drop_spec hda.limbs]
          exact hv.eq_ofNat
        · rw [if_neg hm, u64Add, uAdd_eq (by omega), pure_bind,
            div_approx_eq hdl hda.limbs hTge (by omega) (by omega)]
      rw [happ1, pure_bind]
      have hA1 : B64 ≤ val sa / (o2 + 1) := by
        rw [Nat.le_div_iff_mul_le (by omega)]
        have : B64 * (o2 + 1) ≤ B64 * B64 := Nat.mul_le_mul_left _ (by omega)
        have e : B32 ^ 4 = B64 * B64 := by norm_num
        omega
      have hA1' : val sa / (o2 + 1) * (o2 + 1) ≤ val sa := Nat.div_mul_le_self _ _
      generalize hA1v : val sa / (o2 + 1) = A1 at *
      by_cases c5 : a.length - b.length < 3
      · rw [if_pos c5, shift_right_eq (valid_ofNat _), val_ofNat]
        have hK := hApos (3 + b.length - a.length)
        have q_le : A1 / B32 ^ (3 + b.length - a.length) * B32 ^ (3 + b.length - a.length) ≤ A1 :=
          Nat.div_mul_le_self _ _
        have q_pos : 0 < A1 / B32 ^ (3 + b.length - a.length) := by
          apply Nat.div_pos _ hK
          have : B32 ^ (3 + b.length - a.length) ≤ B32 ^ 2 := Nat.pow_le_pow_right (by omega) (by omega)
          have e : B32 ^ 2 = B64 := by norm_num
          omega
        have ePP : B32 ^ (b.length - 2) = B32 ^ (a.length - 5) * B32 ^ (3 + b.length - a.length) := by
          rw [← pow_add]; congr 1; omega
        generalize A1 / B32 ^ (3 + b.length - a.length) = q at *
        have hq : val b * q ≤ val a := by
          have k1 : val b * q * B32 ^ (3 + b.length - a.length) ≤
              val a * B32 ^ (3 + b.length - a.length) := by
            calc val b * q * B32 ^ (3 + b.length - a.length)
                = val b * (q * B32 ^ (3 + b.length - a.length)) := by ring
              _ ≤ ((o2 + 1) * B32 ^ (b.length - 2)) * A1 := Nat.mul_le_mul o_gt.le q_le
              _ = (A1 * (o2 + 1)) * B32 ^ (b.length - 2) := by ring
              _ ≤ val sa * B32 ^ (b.length - 2) := Nat.mul_le_mul_right _ hA1'
              _ = (val sa * B32 ^ (a.length - 5)) * B32 ^ (3 + b.length - a.length) := by rw [ePP]; ring
              _ ≤ _ := Nat.mul_le_mul_right _ hTle
          exact Nat.le_of_mul_le_mul_right k1 hK
        simp only []
        rw [mul_eq hb (valid_ofNat _), pure_bind, val_ofNat, sub_eq ha (valid_ofNat _) (by simpa using hq),
          pure_bind, val_ofNat]
        exact div_step hb hb0 ha hq q_pos ih
      rw [if_neg c5]
      have hP := hApos (a.length - b.length - 3)
      have ePP : B32 ^ (a.length - 5) = B32 ^ (a.length - b.length - 3) * B32 ^ (b.length - 2) := by
        rw [← pow_add]; congr 1; omega
      generalize B32 ^ (b.length - 2) = Po at *
      -- the generic step with approx1
      have hq : val b * (A1 * B32 ^ (a.length - b.length - 3)) ≤ val a := by
        calc val b * (A1 * B32 ^ (a.length - b.length - 3))
            ≤ ((o2 + 1) * Po) * (A1 * B32 ^ (a.length - b.length - 3)) :=
              Nat.mul_le_mul_right _ o_gt.le
          _ = (A1 * (o2 + 1)) * (B32 ^ (a.length - b.length - 3) * Po) := by ring
          _ = (A1 * (o2 + 1)) * B32 ^ (a.length - 5) := by rw [ePP]
          _ ≤ val sa * B32 ^ (a.length - 5) := Nat.mul_le_mul_right _ hA1'
          _ ≤ _ := hTle
      have hq0 : 0 < A1 * B32 ^ (a.length - b.length - 3) := Nat.mul_pos (by omega) hP
      by_cases c6 : b.length = 2
      · rw [if_pos c6, mul_eq hb (valid_ofNat _), pure_bind, val_ofNat]
        rw [shift_left_eq (valid_ofNat _), shift_left_eq (valid_ofNat _)]
        simp only [val_ofNat]
        rw [Nat.mul_assoc, sub_eq ha (valid_ofNat _) (by simpa using hq), pure_bind, val_ofNat]
        exact div_step hb hb0 ha hq hq0 ih
      rw [if_neg c6]
      rw [div_approx_eq hdl hda.limbs hTge (by omega) (by omega), pure_bind,
        eq_eq (valid_ofNat _) (valid_ofNat _)]
      simp only [val_ofNat]
      have hA2' : val sa / o2 * o2 ≤ val sa := Nat.div_mul_le_self _ _
      have hA12 : A1 ≤ val sa / o2 := by rw [← hA1v]; exact Nat.div_le_div_left (by omega) (by omega)
      generalize val sa / o2 = A2 at *
      by_cases c7 : A2 = A1
      · rw [if_pos (by simpa using c7), c7, mul_eq hb (valid_ofNat _), pure_bind, val_ofNat]
        rw [shift_left_eq (valid_ofNat _), shift_left_eq (valid_ofNat _)]
        simp only [val_ofNat]
        rw [Nat.mul_assoc, sub_eq ha (valid_ofNat _) (by simpa using hq), pure_bind, val_ofNat]
        exact div_step hb hb0 ha hq hq0 ih
      rw [if_neg (by simpa using c7), uSub_eq (by omega), pure_bind, idx_eq (by omega), pure_bind,
        uShr_eq (by omega), pure_bind]
      have hlimb : b[b.length - 3] < B32 := hb.limbs _ (List.getElem_mem _)
      generalize b[b.length - 3] = y at *
      rw [u64Add, uAdd_eq (by omega), pure_bind]
      have hr1 : 1 ≤ (y / 2 ^ 24 + 1) % B32 := by omega
      have hr2 : (y / 2 ^ 24 + 1) % B32 ≤ 256 := by omega
      generalize (y / 2 ^ 24 + 1) % B32 = r at *
      rw [mul_u32_eq (valid_ofNat _) (by omega), pure_bind, uSub_eq (by omega), pure_bind,
        mul_u32_eq (valid_ofNat _) (by omega), pure_bind]
      simp only [val_ofNat]
      rw [add_eq (valid_ofNat _) (valid_ofNat _), pure_bind]
      simp only [val_ofNat]
      rw [div_u32_eq (valid_ofNat _) (by omega) (by omega), pure_bind]
      simp only [val_ofNat]
      have hA3lo : A1 ≤ (A1 * r + A2 * (256 - r)) / 256 := by
        rw [Nat.le_div_iff_mul_le (by omega)]
        calc A1 * 256 = A1 * r + A1 * (256 - r) := by rw [← Nat.mul_add]; congr 1; omega
          _ ≤ _ := Nat.add_le_add_left (Nat.mul_le_mul_right _ hA12) _
      have hA3hi : (A1 * r + A2 * (256 - r)) / 256 ≤ A2 := by
        apply Nat.div_le_of_le_mul
        calc A1 * r + A2 * (256 - r) ≤ A2 * r + A2 * (256 - r) :=
              Nat.add_le_add_right (Nat.mul_le_mul_right _ hA12) _
          _ = 256 * A2 := by rw [← Nat.mul_add, Nat.mul_comm]; congr 1; omega
      generalize (A1 * r + A2 * (256 - r)) / 256 = A3 at *
      rw [mul_eq hb (valid_ofNat _), pure_bind, val_ofNat, shift_left_eq (valid_ofNat _),
        shift_left_eq (valid_ofNat _)]
      simp only [val_ofNat]
      rw [Nat.mul_assoc, geq_eq ha (valid_ofNat _)]
      simp only [val_ofNat]
      have hN0 : 0 < A3 * B32 ^ (a.length - b.length - 3) := Nat.mul_pos (by omega) hP
      have hover : val b * (A3 * B32 ^ (a.length - b.length - 3)) < 2 * val a := by
        have hsa : 0 < val sa := by omega
        have k1 : val b * (A3 * B32 ^ (a.length - b.length - 3)) * o2 < (2 * val a) * o2 := by
          calc val b * (A3 * B32 ^ (a.length - b.length - 3)) * o2
              = val b * B32 ^ (a.length - b.length - 3) * (A3 * o2) := by ring
            _ ≤ val b * B32 ^ (a.length - b.length - 3) * (A2 * o2) :=
                Nat.mul_le_mul_left _ (Nat.mul_le_mul_right _ hA3hi)
            _ ≤ val b * B32 ^ (a.length - b.length - 3) * val sa := Nat.mul_le_mul_left _ hA2'
            _ = val b * (B32 ^ (a.length - b.length - 3) * val sa) := by ring
            _ < ((o2 + 1) * Po) * (B32 ^ (a.length - b.length - 3) * val sa) :=
                Nat.mul_lt_mul_of_pos_right o_gt (Nat.mul_pos hP hsa)
            _ = (o2 + 1) * (val sa * (B32 ^ (a.length - b.length - 3) * Po)) := by ring
            _ ≤ (o2 + 1) * val a := by rw [← ePP]; exact Nat.mul_le_mul_left _ hTle
            _ ≤ (2 * o2) * val a := Nat.mul_le_mul_right _ (by omega)
            _ = _ := by ring
          
        exact Nat.lt_of_mul_lt_mul_right k1
      generalize A3 * B32 ^ (a.length - b.length - 3) = N at *
      by_cases c8 : val b * N ≤ val a
      · rw [if_pos (by simpa using c8), sub_eq ha (valid_ofNat _) (by simpa using c8), pure_bind, val_ofNat]
        exact div_step hb hb0 ha c8 hN0 ih
      rw [if_neg (by simpa using c8), sub_eq (valid_ofNat _) ha (by simp; omega), pure_bind, val_ofNat,
        ih _ (by omega), pure_bind]
      -- approx4
      have e := Nat.div_add_mod (val b * N - val a) (val b)
      have hmod := Nat.mod_lt (val b * N - val a) hb0
      generalize (val b * N - val a) / val b = t2 at *
      generalize (val b * N - val a) % val b = rr at *
      have ht2 : t2 < N := by
        have : val b * t2 < val b * N := by
          have hA0 : 0 < val a := lt_of_lt_of_le (hApos _) hA
          omega
        exact Nat.lt_of_mul_lt_mul_left this
      rw [sub_eq (valid_ofNat _) (valid_ofNat _) (by simp; omega), pure_bind]
      simp only [val_ofNat]
      rw [mul_eq (valid_ofNat _) hb, pure_bind, val_ofNat, leq_eq (valid_ofNat _) ha, val_ofNat]
      obtain ⟨k, rfl⟩ : ∃ k, N = t2 + (k + 1) := ⟨N - t2 - 1, by omega⟩
      rw [Nat.add_sub_cancel_left]
      have e2 : val b * (t2 + (k + 1)) = val b * t2 + (k + 1) * val b := by ring
      have e3 : (k + 1) * val b = k * val b + val b := by ring
      by_cases c9 : (k + 1) * val b ≤ val a
      · rw [if_pos (by simpa using c9)]
        have : rr = 0 := by omega
        congr 2
        rw [show val a = (k + 1) * val b by omega, Nat.mul_div_cancel _ hb0]
      · rw [if_neg (by simpa using c9), sub_u32, sub_u32_mut_eq (valid_ofNat _) (by omega) (by simp), val_ofNat]
        congr 2
        have : val a = val b * k + (val b - rr) := by rw [Nat.mul_comm]; omega
        rw [this, Nat.mul_add_div hb0, Nat.div_eq_of_lt (by omega)]; simp
    · -- equal lengths
      rw [if_neg c4]
      have hlen : a.length = b.length := by omega
      rw [top2_eq ha (by omega), pure_bind, top2_eq hb hb2, pure_bind, hlen]
      have s_hi : val a / B32 ^ (b.length - 2) < B64 := by
        rw [Nat.div_lt_iff_lt_mul hPo, Nat.mul_comm, ← ePb, ← hlen]; exact val_lt ha.limbs
      have s_le : val a / B32 ^ (b.length - 2) * B32 ^ (b.length - 2) ≤ val a := Nat.div_mul_le_self _ _
      have s_gt : val a < (val a / B32 ^ (b.length - 2) + 1) * B32 ^ (b.length - 2) :=
        (Nat.div_lt_iff_lt_mul hPo).mp (Nat.lt_succ_self _)
      generalize val b / B32 ^ (b.length - 2) = o2 at *
      generalize val a / B32 ^ (b.length - 2) = s2 at *
      generalize B32 ^ (b.length - 2) = Po at *
      by_cases c5 : s2 < o2
      · rw [if_pos c5, Nat.div_eq_of_lt, zero, ofNat_zero]
        calc val a < (s2 + 1) * Po := s_gt
          _ ≤ o2 * Po := Nat.mul_le_mul_right _ c5
          _ ≤ val b := o_le
      rw [if_neg c5]
      by_cases c6 : s2 > o2
      · rw [if_pos c6, u64Add, uAdd_eq (by omega), pure_bind, uDiv_eq (by omega), pure_bind]
        have hq' : s2 / (o2 + 1) * (o2 + 1) ≤ s2 := Nat.div_mul_le_self _ _
        have hq0 : 0 < s2 / (o2 + 1) := Nat.div_pos (by omega) (by omega)
        have hqB : s2 / (o2 + 1) < B64 := lt_of_le_of_lt (Nat.div_le_self _ _) s_hi
        simp only []
        rw [from_u64_eq hqB]
        generalize s2 / (o2 + 1) = q at *
        have hq : val b * q ≤ val a := by
          calc val b * q ≤ ((o2 + 1) * Po) * q := Nat.mul_le_mul_right _ o_gt.le
            _ = (q * (o2 + 1)) * Po := by ring
            _ ≤ s2 * Po := Nat.mul_le_mul_right _ hq'
            _ ≤ _ := s_le
        rw [mul_eq hb (valid_ofNat _), pure_bind, val_ofNat, sub_eq ha (valid_ofNat _) (by simpa using hq),
          pure_bind, val_ofNat]
        exact div_step hb hb0 ha hq hq0 ih
      rw [if_neg c6, gt_eq hb ha]
      by_cases c7 : val a < val b
      · rw [if_pos (by simpa using c7), Nat.div_eq_of_lt c7, zero, ofNat_zero]
      · rw [if_neg (by simpa using c7), one, ← ofNat_one]
        congr 2
        have hso : s2 = o2 := by omega
        subst hso
        symm
        apply Nat.div_eq_of_lt_le
        · omega
        · have : (s2 + 1) * Po ≤ (2 * s2) * Po := Nat.mul_le_mul_right _ (by omega)
          have : (2 * s2) * Po = 2 * (s2 * Po) := by ring
          omega

theorem div_panics {a b : UBig} (ha : Valid a) (hb : Valid b) (hb0 : val b = 0) :
    div a b = throw .divZero := by
  have : b = [0] := by rw [hb.eq_ofNat, hb0, ofNat_zero]
  subst this
  have ha0 := List.length_pos_iff.mpr ha.ne
  rw [div, if_neg (by change ¬ (a.length < 1); omega)]
  by_cases c2 : a.length < 5 ∧ [0].length < 5
  · have e : B32 ^ 4 = B128 := by norm_num
    have h1 := (length_iff_val ha (k := 4) (by omega)).mp (by omega)
    rw [e] at h1
    rw [if_pos c2, to_u128_eq ha, pure_bind, if_pos h1]
    rfl
  · rw [if_neg c2, if_pos (by rfl), idx_zero_cons, pure_bind, div_u32, div_u32_mut_zero ha]

theorem rem_eq {a b : UBig} (ha : Valid a) (hb : Valid b) (hb0 : 0 < val b) :
    rem a b = pure (ofNat (val a % val b)) := by
  rw [rem, div_eq ha hb hb0, pure_bind, mul_eq (valid_ofNat _) hb, pure_bind, val_ofNat,
    sub_eq ha (valid_ofNat _) (by simpa using Nat.div_mul_le_self _ _), val_ofNat]
  congr 2
  have := Nat.div_add_mod (val a) (val b)
  rw [Nat.mul_comm] at this
  omega

theorem rem_mut_eq {a b : UBig} (ha : Valid a) (hb : Valid b) (hb0 : 0 < val b) :
    rem_mut a b = pure (ofNat (val a % val b)) := rem_eq ha hb hb0

theorem rem_panics {a b : UBig} (ha : Valid a) (hb : Valid b) (hb0 : val b = 0) :
    rem a b = throw .divZero := by
  rw [rem, div_panics ha hb hb0]; rfl

/-! ### remainder modulo a limb -/

theorem remU32Loop_spec (o : Nat) (ho0 : 0 < o) (ho : o < B32) (ds : List Nat) (hd : Limbs ds)
    (p res : Nat) (hp : p ≤ o) (hp1 : p = o → o = 1) (hres : res + ds.length * o < B64) :
    ∃ r, remU32Loop o (B32 % o) ds p res = pure r ∧ r < B64 ∧ r % o = (res + p * val ds) % o := by
  induction ds generalizing p res with
  | nil => exact ⟨res, by rw [remU32Loop], by simpa using hres, by simp⟩
  | cons d ds ih =>
    rw [limbs_cons] at hd
    have h1 : d % o * p ≤ U32MAX * U32MAX := by
      have := Nat.mod_lt d ho0
      exact Nat.mul_le_mul (by omega) (by omega)
    have h2 : p * (B32 % o) ≤ U32MAX * U32MAX := by
      have := Nat.mod_lt B32 ho0
      exact Nat.mul_le_mul (by omega) (by omega)
    have h3 := Nat.mod_lt (d % o * p) ho0
    have h4 := Nat.mod_lt (p * (B32 % o)) ho0
    simp only [List.length_cons, Nat.add_mul, Nat.one_mul] at hres
    rw [remU32Loop, uRem_eq (by omega), pure_bind, u64Mul, uMul_eq (by omega), pure_bind, uRem_eq (by omega),
      pure_bind, u64Add, uAdd_eq (by omega), pure_bind, uMul_eq (by omega), pure_bind, uRem_eq (by omega),
      pure_bind]
    obtain ⟨r, k1, k2, k3⟩ := ih hd.2 (p * (B32 % o) % o) (res + d % o * p % o) (by omega) (by omega)
      (by omega)
    refine ⟨r, k1, k2, ?_⟩
    rw [k3, val_cons]
    have e : p * (d + B32 * val ds) = d * p + p * B32 * val ds := by ring
    rw [e]
    simp [Nat.add_mod, Nat.mul_mod, Nat.add_assoc]

theorem rem_u32_eq {a : UBig} {o : Nat} (ha : Valid a) (ho : o < B32) (ho0 : 0 < o)
    (hlen : a.length ≤ B32) : rem_u32 a o = pure (ofNat (val a % o)) := by
  have hlo : a.length * o ≤ B32 * U32MAX := Nat.mul_le_mul hlen (by omega)
  obtain ⟨r, h1, h2, h3⟩ := remU32Loop_spec o ho0 ho a ha.limbs 1 0 (by omega) (by omega) (by omega)
  have hr := Nat.mod_lt r ho0
  rw [rem_u32, uRem_eq (by omega), pure_bind, h1, pure_bind, uRem_eq (by omega), pure_bind,
    Nat.mod_eq_of_lt (b := B32) (by omega), from_u32_eq (by omega), h3]
  simp

theorem remU32MutLoop_spec (o : Nat) (ho0 : 0 < o) (ho : o ≤ 65536) (ds : List Nat) (hd : Limbs ds)
    (p res : Nat) (hp : p ≤ o) (hp1 : p = o → o = 1) (hres : res + ds.length * o < B32) :
    ∃ r, remU32MutLoop o (B32 % o) ds p res = pure r ∧ r < B32 ∧ r % o = (res + p * val ds) % o := by
  induction ds generalizing p res with
  | nil => exact ⟨res, by rw [remU32MutLoop], by simpa using hres, by simp⟩
  | cons d ds ih =>
    rw [limbs_cons] at hd
    have h1 : d % o * p ≤ 65535 * 65536 := by
      have := Nat.mod_lt d ho0
      exact Nat.mul_le_mul (by omega) (by omega)
    have h2 : p * (B32 % o) ≤ 65536 * 65535 := by
      have := Nat.mod_lt B32 ho0
      exact Nat.mul_le_mul (by omega) (by omega)
    have h3 := Nat.mod_lt (d % o * p) ho0
    have h4 := Nat.mod_lt (p * (B32 % o)) ho0
    simp only [List.length_cons, Nat.add_mul, Nat.one_mul] at hres
    rw [remU32MutLoop, uRem_eq (by omega), pure_bind, u32Mul, uMul_eq (by omega), pure_bind,
      uRem_eq (by omega), pure_bind, u32Add, uAdd_eq (by omega), pure_bind, uMul_eq (by omega), pure_bind,
      uRem_eq (by omega), pure_bind]
    obtain ⟨r, k1, k2, k3⟩ := ih hd.2 (p * (B32 % o) % o) (res + d % o * p % o) (by omega) (by omega)
      (by omega)
    refine ⟨r, k1, k2, ?_⟩
    rw [k3, val_cons]
    have e : p * (d + B32 * val ds) = d * p + p * B32 * val ds := by ring
    rw [e]
    simp [Nat.add_mod, Nat.mul_mod, Nat.add_assoc]

theorem rem_u32_mut_eq {a : UBig} {o : Nat} (ha : Valid a) (ho0 : 0 < o) (ho : o ≤ 65536)
    (hlen : a.length < 65536) : rem_u32_mut a o = pure (ofNat (val a % o)) := by
  have hlo : a.length * o ≤ 65535 * 65536 := Nat.mul_le_mul (by omega) (by omega)
  obtain ⟨r, h1, h2, h3⟩ := remU32MutLoop_spec o ho0 ho a ha.limbs 1 0 (by omega) (by omega) (by omega)
  have hr := Nat.mod_lt r ho0
  have hu := Nat.mod_lt B32 ho0
  rw [rem_u32_mut, uRem_eq (by omega), pure_bind, Nat.mod_eq_of_lt (b := B32) (by omega)]
  simp only []
  rw [h1, pure_bind, uRem_eq (by omega), pure_bind, from_u32_eq (by omega), h3]
  simp

theorem rem_pow2_eq {a : UBig} {k : Nat} (ha : Valid a) (hk : k < 32) :
    rem_pow2 a (2 ^ k) = pure (ofNat (val a % 2 ^ k)) := by
  cases a with
  | nil => exact absurd rfl ha.ne
  | cons x xs =>
    have hx : x < B32 := ha.limbs x (by simp)
    have hk2 : 0 < 2 ^ k := Nat.pow_pos (by omega)
    have := Nat.mod_le x (2 ^ k)
    rw [rem_pow2, idx_zero_cons, pure_bind, uRem_eq (by omega), pure_bind, from_u32_eq (by omega)]
    congr 2
    rw [val_cons]
    have : B32 = 2 ^ k * 2 ^ (32 - k) := by
      rw [← pow_add, show k + (32 - k) = 32 by omega]; norm_num
    rw [this, Nat.mul_assoc, Nat.add_mul_mod_self_left]

/-! ### powers -/

/-- a stack of successive squares -/
def Squares (v : Nat) : Nat → List UBig → Prop
  | _, [] => False
  | k, l :: ls => l = ofNat (v ^ 2 ^ k) ∧ match k with
    | 0 => ls = []
    | k + 1 => Squares v k ls

theorem powUp_spec (v exp : Nat) (he : exp < 2 ^ 31) (k : Nat) (hk : 2 ^ k ≤ exp) (ps : List UBig)
    (hps : Squares v k ps) :
    ∃ k' ps', powUp exp ps (2 ^ k) = pure (ps', 2 ^ k') ∧ Squares v k' ps' ∧ 2 ^ k' ≤ exp ∧
      exp < 2 ^ (k' + 1) := by
  induction hm : exp - 2 ^ k using Nat.strong_induction_on generalizing k ps with
  | _ m ih =>
    rw [powUp, u32Mul, uMul_eq (by omega), pure_bind]
    have e : 2 ^ k * 2 = 2 ^ (k + 1) := (pow_succ 2 k).symm
    have hpos : 0 < 2 ^ k := Nat.pow_pos (by omega)
    by_cases h : 2 ^ k * 2 ≤ exp
    · rw [if_pos h]
      cases ps with
      | nil => exact absurd hps (by simp [Squares])
      | cons l ls =>
        have hl : l = ofNat (v ^ 2 ^ k) := by
          cases k <;> exact hps.1
        rw [idx_zero_cons, pure_bind, hl, mul_eq (valid_ofNat _) (valid_ofNat _), pure_bind, val_ofNat,
          ← pow_add, ← Nat.mul_two, e, ← hl]
        exact ih (exp - 2 ^ (k + 1)) (by omega) (k + 1) (by omega) _ ⟨rfl, hps⟩ rfl
    · rw [if_neg h]
      exact ⟨k, ps, rfl, hps, hk, by omega⟩

theorem powDown_spec (v exp k : Nat) (he : exp < 2 ^ (k + 1)) (ps : List UBig) (hps : Squares v k ps)
    (n : Nat) :
    powDown (ofNat n) ps exp (2 ^ k) = pure (ofNat (n * v ^ exp)) := by
  induction k generalizing exp ps n with
  | zero =>
    obtain ⟨l, rfl, hl⟩ : ∃ l, ps = [l] ∧ l = ofNat (v ^ 2 ^ 0) := by
      cases ps with
      | nil => exact absurd hps (by simp [Squares])
      | cons l ls => exact ⟨l, by rw [show ls = [] from hps.2], hps.1⟩
    rw [powDown, if_pos (by norm_num)]
    by_cases h : 2 ^ 0 ≤ exp
    · rw [if_pos h, hl, mul_mut_eq (valid_ofNat _) (valid_ofNat _), pure_bind, uSub_eq h, pure_bind, powDown,
        if_neg (by norm_num)]
      simp only [val_ofNat]
      have : exp = 1 := by omega
      subst this; simp
    · rw [if_neg h, powDown, if_neg (by norm_num)]
      have : exp = 0 := by omega
      subst this; simp
  | succ k ih =>
    obtain ⟨l, ls, rfl, hl, hls⟩ : ∃ l ls, ps = l :: ls ∧ l = ofNat (v ^ 2 ^ (k + 1)) ∧ Squares v k ls := by
      cases ps with
      | nil => exact absurd hps (by simp [Squares])
      | cons l ls => exact ⟨l, ls, rfl, hps.1, hps.2⟩
    have hp : 0 < 2 ^ (k + 1) := Nat.pow_pos (by omega)
    have hhalf : 2 ^ (k + 1) / 2 = 2 ^ k := by rw [pow_succ]; omega
    have e2 : 2 ^ (k + 1 + 1) = 2 ^ (k + 1) * 2 := pow_succ 2 (k + 1)
    rw [powDown, if_pos hp]
    by_cases h : 2 ^ (k + 1) ≤ exp
    · rw [if_pos h, hl, mul_mut_eq (valid_ofNat _) (valid_ofNat _), pure_bind, uSub_eq h, pure_bind, hhalf]
      simp only [val_ofNat]
      rw [ih (exp - 2 ^ (k + 1)) (by omega) ls hls, Nat.mul_assoc, ← pow_add, Nat.add_sub_cancel' h]
    · rw [if_neg h, hhalf, ih exp (by omega) ls hls]

theorem pow_u32_eq {a : UBig} {e : Nat} (ha : Valid a) (he : e < 2 ^ 31) :
    pow_u32 a e = pure (ofNat (val a ^ e)) := by
  rw [pow_u32]
  by_cases h3 : e < 3
  · rw [if_pos h3]
    by_cases h0 : e = 0
    · subst h0; simp [one, ofNat_one]
    rw [if_neg h0]
    by_cases h1 : e = 1
    · subst h1; simp [← ha.eq_ofNat]
    rw [if_neg h1, mul_eq ha ha]
    have : e = 2 := by omega
    subst this; rw [pow_two]
  · rw [if_neg h3]
    obtain ⟨k, ps, h1, h2, h4, h5⟩ := powUp_spec (val a) e he 0 (by omega) [a]
      ⟨by simp [← ha.eq_ofNat], rfl⟩
    rw [pow_zero] at h1
    rw [h1, pure_bind]
    cases k with
    | zero => simp at h5; omega
    | succ k =>
      cases ps with
      | nil => exact absurd h2 (by simp [Squares])
      | cons l ls =>
        obtain ⟨hl, hls⟩ := h2
        have hhalf : 2 ^ (k + 1) / 2 = 2 ^ k := by rw [pow_succ]; omega
        have e2 : 2 ^ (k + 1 + 1) = 2 ^ (k + 1) * 2 := pow_succ 2 (k + 1)
        simp only []
        rw [uSub_eq h4, pure_bind, hl, hhalf, powDown_spec (val a) _ k (by omega) ls hls, ← pow_add,
          Nat.add_sub_cancel' h4]

/-- The stack loop always overflows for exponents with the top bit set. -/
theorem powUp_panics (v exp : Nat) (he : 2 ^ 31 ≤ exp) (k : Nat) (hk : k ≤ 31) (ps : List UBig)
    (hps : Squares v k ps) : powUp exp ps (2 ^ k) = throw .overflow := by
  induction hm : 31 - k generalizing k ps with
  | zero =>
    have : k = 31 := by omega
    subst this
    rw [powUp]
    have : u32Mul (2 ^ 31) 2 = throw .overflow := by
      rw [u32Mul, uMul, if_neg (by norm_num)]
    rw [this]; rfl
  | succ m ih =>
    have e : 2 ^ k * 2 = 2 ^ (k + 1) := (pow_succ 2 k).symm
    have hle : 2 ^ (k + 1) ≤ 2 ^ 31 := Nat.pow_le_pow_right (by omega) (by omega)
    rw [powUp, u32Mul, uMul_eq (by omega), pure_bind, if_pos (by omega)]
    cases ps with
    | nil => exact absurd hps (by simp [Squares])
    | cons l ls =>
      have hl : l = ofNat (v ^ 2 ^ k) := by
        cases k <;> exact hps.1
      rw [idx_zero_cons, pure_bind, hl, mul_eq (valid_ofNat _) (valid_ofNat _), pure_bind, val_ofNat,
        ← pow_add, ← Nat.mul_two, e, ← hl]
      exact ih (k + 1) (by omega) _ ⟨rfl, hps⟩ (by omega)

theorem pow_u32_panics {a : UBig} {e : Nat} (ha : Valid a) (he : 2 ^ 31 ≤ e) :
    pow_u32 a e = throw .overflow := by
  rw [pow_u32, if_neg (by omega)]
  have := powUp_panics (val a) e he 0 (by omega) [a] ⟨by simp [← ha.eq_ofNat], rfl⟩
  rw [pow_zero] at this
  rw [this]; rfl

/-! ### log2 -/

theorem log2_eq {a : UBig} (ha : Valid a) (hlen : a.length ≤ 2 ^ 58) :
    log2 a = pure (ofNat (Nat.log2 (val a))) := by
  have ha0 := List.length_pos_iff.mpr ha.ne
  obtain ⟨p, x, rfl⟩ : ∃ p x, a = p ++ [x] :=
    ⟨a.dropLast, a.getLast ha.ne, (List.dropLast_append_getLast ha.ne).symm⟩
  have hl := ha.limbs'
  rw [limbs_append] at hl
  simp only [limbs_cons] at hl
  have hlog : log2_u32 x < 32 ∧ (x ≠ 0 → 2 ^ log2_u32 x ≤ x ∧ x < 2 ^ (log2_u32 x + 1)) := by
    rw [log2_u32]
    by_cases hx : x = 0
    · rw [if_pos hx]; exact ⟨by omega, fun h => absurd hx h⟩
    · rw [if_neg hx]
      exact ⟨(Nat.log2_lt hx).mpr (by omega), fun _ => ⟨Nat.log2_self_le hx, Nat.lt_log2_self⟩⟩
  simp only [List.length_append, List.length_cons, List.length_nil] at hlen
  simp only [log2, List.length_append, List.length_cons, List.length_nil]
  rw [uSub_eq (by omega), pure_bind, Nat.add_sub_cancel, u64Mul, uMul_eq (by omega), pure_bind,
    idx_some (x := x) (by simp), pure_bind, u64Add, uAdd_eq (by omega), pure_bind, from_u64_eq (by omega)]
  congr 2
  have hv : val (p ++ [x]) = val p + B32 ^ p.length * x := by rw [val_append]; simp
  have hp := val_lt hl.1
  by_cases hx : x = 0
  · subst hx
    have hpn : p = [] := by
      by_contra hp
      have := List.length_pos_iff.mpr hp
      exact ha.top (by simp; omega) (by simp)
    subst hpn; rfl
  · obtain ⟨h1, h2⟩ := hlog.2 hx
    have hb : B32 ^ p.length = 2 ^ (p.length * 32) := by
      rw [Nat.mul_comm, pow_mul]; norm_num
    symm
    rw [Nat.log2_eq_iff (by rw [hv]; have := Nat.mul_pos (Nat.pow_pos (n := p.length) (show 0 < B32 by omega)) (Nat.pos_of_ne_zero hx); omega), hv]
    constructor
    · rw [pow_add, ← hb]
      exact (Nat.mul_le_mul_left _ h1).trans (Nat.le_add_left _ _)
    · rw [Nat.add_assoc, pow_add, ← hb]
      calc val p + B32 ^ p.length * x < B32 ^ p.length + B32 ^ p.length * x := by omega
        _ = B32 ^ p.length * (x + 1) := by ring
        _ ≤ _ := Nat.mul_le_mul_left _ h2

/-! ### gcd -/

theorem gcdLoop_eq {a b : UBig} (ha : Valid a) (hb : Valid b) :
    gcdLoop a b = pure (ofNat (Nat.gcd (val a) (val b))) := by
  induction hn : val a using Nat.strong_induction_on generalizing a b with
  | _ n ih =>
    rw [gcdLoop, is_zero_eq ha]
    by_cases h : val a = 0
    · rw [if_neg (by simpa using h)]
      have hn0 : n = 0 := by omega
      subst hn0; rw [Nat.gcd_zero_left, ← hb.eq_ofNat]
    · rw [if_pos (by simpa using h), rem_eq hb ha (by omega), pure_bind]
      have hlt := Nat.mod_lt (val b) (Nat.pos_of_ne_zero h)
      rw [ih (val b % val a) (by omega) (valid_ofNat _) ha (by simp), ← hn, ← Nat.gcd_rec]

theorem gcd_ubi_eq {a b : UBig} (ha : Valid a) (hb : Valid b) :
    gcd_ubi a b = pure (ofNat (Nat.gcd (val a) (val b))) := by
  rw [gcd_ubi, is_zero_eq ha]
  by_cases h : val a = 0
  · rw [if_pos (by simpa using h), h, Nat.gcd_zero_left, ← hb.eq_ofNat]
  · rw [if_neg (by simpa using h), rem_eq hb ha (by omega), pure_bind, gcdLoop_eq (valid_ofNat _) ha, val_ofNat,
      ← Nat.gcd_rec]

end UBig
end Hmath
