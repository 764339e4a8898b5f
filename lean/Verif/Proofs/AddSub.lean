import Verif.Proofs.Limbs

/-! # Addition, subtraction -/

namespace Hmath

theorem valid_of_val_ge {t : List Nat} (hne : t ≠ []) (hl : Limbs t)
    (h : 1 < t.length → B32 ^ (t.length - 1) ≤ val t) : Valid t := by
  refine ⟨hne, hl, fun hlen htop => ?_⟩
  induction t using List.reverseRecOn with
  | nil => exact hne rfl
  | append_singleton s x _ =>
    simp only [List.getLast?_append, List.getLast?_singleton, Option.some_or,
      Option.some.injEq] at htop
    subst htop
    have h1 := h hlen
    rw [val_append] at h1
    have := val_lt (limbs_append.mp hl).1
    simp at h1
    omega

theorem Valid.val_ge {a : List Nat} (h : Valid a) (hl : 1 < a.length) :
    B32 ^ (a.length - 1) ≤ val a := by
  have h0 : 0 < val a := val_pos_of_top h.ne (h.top hl)
  have := pow_length_le h0
  rwa [← h.eq_ofNat] at this

theorem v64_to_v32_spec (x : Nat) (r : List Nat) (hx : x < B64) (hr : ∀ y ∈ r, y ≤ B64 - B32) :
    ∃ t, v64_to_v32 (x :: r) = pure t ∧ Limbs t ∧ val t = val (x :: r) ∧
      (t.length = r.length + 1 ∨ (t.length = r.length + 2 ∧ B32 ^ (r.length + 1) ≤ val t)) := by
  induction r generalizing x with
  | nil =>
    rw [v64_to_v32]
    by_cases h : x ≥ B32
    · rw [if_pos h]
      refine ⟨_, rfl, ?_, ?_, Or.inr ⟨rfl, ?_⟩⟩
      · simp [limbs_nil]; omega
      · simp; omega
      · simp; omega
    · rw [if_neg h]
      refine ⟨_, rfl, ?_, ?_, Or.inl rfl⟩
      · simp [limbs_nil]; omega
      · simp; omega
  | cons y r ih =>
    have hy : y ≤ B64 - B32 := hr y (by simp)
    have hr' : ∀ z ∈ r, z ≤ B64 - B32 := fun z hz => hr z (by simp [hz])
    rw [v64_to_v32]
    by_cases h : x ≥ B32
    · rw [if_pos h, u64Add, uAdd_eq (by omega), pure_bind]
      obtain ⟨t, h1, h2, h3, h4⟩ := ih (y + x / B32) (by omega) hr'
      rw [h1, pure_bind]
      refine ⟨_, rfl, ?_, ?_, ?_⟩
      · rw [limbs_cons]; exact ⟨by omega, h2⟩
      · rw [val_cons, h3]; simp only [val_cons]; omega
      · rcases h4 with h4 | ⟨h4, h5⟩
        · left; simp [h4]
        · right; refine ⟨by simp [h4], ?_⟩
          rw [val_cons, List.length_cons, pow_succ _ (r.length + 1)]; generalize B32 ^ (r.length + 1) = P at *; omega
    · rw [if_neg h]
      obtain ⟨t, h1, h2, h3, h4⟩ := ih y (by omega) hr'
      rw [h1, pure_bind]
      refine ⟨_, rfl, ?_, ?_, ?_⟩
      · rw [limbs_cons]; exact ⟨by omega, h2⟩
      · rw [val_cons, h3]; simp only [val_cons]; omega
      · rcases h4 with h4 | ⟨h4, h5⟩
        · left; simp [h4]
        · right; refine ⟨by simp [h4], ?_⟩
          rw [val_cons, List.length_cons, pow_succ _ (r.length + 1)]; generalize B32 ^ (r.length + 1) = P at *; omega

theorem v64_to_v32_spec' {r : List Nat} (hne : r ≠ []) (hr : ∀ y ∈ r, y ≤ B64 - B32) :
    ∃ t, v64_to_v32 r = pure t ∧ Limbs t ∧ val t = val r ∧
      (t.length = r.length ∨ (t.length = r.length + 1 ∧ B32 ^ r.length ≤ val t)) := by
  cases r with
  | nil => exact absurd rfl hne
  | cons x r =>
    have h0 : x ≤ B64 - B32 := hr x (by simp)
    exact v64_to_v32_spec x r (by omega) (fun y hy => hr y (by simp [hy]))

namespace UBig

theorem addCols_spec {a b : List Nat} (ha : Limbs a) (hb : Limbs b) :
    ∃ r, addCols a b = pure r ∧ (∀ y ∈ r, y ≤ B64 - B32) ∧ val r = val a + val b ∧
      r.length = max a.length b.length := by
  induction a generalizing b with
  | nil =>
    refine ⟨b, ?_, ?_, by simp, by simp⟩
    · cases b <;> simp [addCols]
    · intro y hy; have := hb y hy; omega
  | cons x xs ih =>
    cases b with
    | nil =>
      refine ⟨x :: xs, by simp [addCols], ?_, by simp, by simp⟩
      intro y hy; have := ha y hy; omega
    | cons y ys =>
      rw [limbs_cons] at ha hb
      obtain ⟨r, h1, h2, h3, h4⟩ := ih ha.2 hb.2
      refine ⟨(x + y) :: r, ?_, ?_, ?_, ?_⟩
      · rw [addCols, u64Add, uAdd_eq (by omega), pure_bind, h1, pure_bind]
      · intro z hz
        rw [List.mem_cons] at hz
        rcases hz with rfl | hz
        · omega
        · exact h2 z hz
      · simp only [val_cons, h3]; ring
      · simp [h4]

theorem add_eq {a b : UBig} (ha : Valid a) (hb : Valid b) :
    add a b = pure (ofNat (val a + val b)) := by
  obtain ⟨r, h1, h2, h3, h4⟩ := addCols_spec ha.limbs hb.limbs
  have ha0 := List.length_pos_iff.mpr ha.ne
  have hr : r ≠ [] := by
    intro h; subst h; simp at h4; omega
  obtain ⟨t, k1, k2, k3, k4⟩ := v64_to_v32_spec' hr h2
  rw [add, h1, pure_bind, k1, ← h3, ← k3]
  congr 1
  apply Valid.eq_ofNat
  apply valid_of_val_ge _ k2
  · intro hl
    rcases k4 with k4 | ⟨k4, k5⟩
    · rw [k4, h4, k3, h3]
      rw [k4, h4] at hl
      rcases le_total a.length b.length with h | h
      · rw [max_eq_right h] at hl ⊢
        have := hb.val_ge hl; omega
      · rw [max_eq_left h] at hl ⊢
        have := ha.val_ge hl; omega
    · rw [k4]; simpa using k5
  · intro h; subst h; simp at k4; omega

theorem addMutPush_spec (ys : List Nat) (c : Bool) (hy : Limbs ys) :
    ∃ t c', addMutPush ys c = pure (t, c') ∧ Limbs t ∧ t.length = ys.length ∧
      val t + B32 ^ ys.length * c'.toNat = val ys + c.toNat := by
  induction ys generalizing c with
  | nil => exact ⟨[], c, rfl, limbs_nil, rfl, by simp⟩
  | cons y ys ih =>
    rw [limbs_cons] at hy
    cases c with
    | true =>
      by_cases h : y + 1 < B32
      · obtain ⟨t, c', h1, h2, h3, h4⟩ := ih false hy.2
        refine ⟨(y + 1) :: t, c', ?_, ?_, ?_, ?_⟩
        · rw [addMutPush, if_pos h, h1, pure_bind]
        · rw [limbs_cons]; exact ⟨h, h2⟩
        · simp [h3]
        · simp only [val_cons, List.length_cons, pow_succ, Bool.toNat_true, Bool.toNat_false] at *
          nlinarith
      · obtain ⟨t, c', h1, h2, h3, h4⟩ := ih true hy.2
        refine ⟨0 :: t, c', ?_, ?_, ?_, ?_⟩
        · rw [addMutPush, if_neg h, h1, pure_bind]
        · rw [limbs_cons]; exact ⟨by omega, h2⟩
        · simp [h3]
        · have : y = U32MAX := by omega
          simp only [val_cons, List.length_cons, pow_succ, Bool.toNat_true] at *
          nlinarith
    | false =>
      obtain ⟨t, c', h1, h2, h3, h4⟩ := ih false hy.2
      refine ⟨y :: t, c', ?_, ?_, ?_, ?_⟩
      · rw [addMutPush, h1, pure_bind]
      · rw [limbs_cons]; exact ⟨hy.1, h2⟩
      · simp [h3]
      · simp only [val_cons, List.length_cons, pow_succ, Bool.toNat_false] at *
        nlinarith

theorem addMutCarry_spec (xs : List Nat) (hx : Limbs xs) :
    Limbs (addMutCarry xs).1 ∧ (addMutCarry xs).1.length = xs.length ∧
      val (addMutCarry xs).1 + B32 ^ xs.length * (addMutCarry xs).2.toNat = val xs + 1 := by
  induction xs with
  | nil => exact ⟨limbs_nil, rfl, by simp [addMutCarry]⟩
  | cons x xs ih =>
    rw [limbs_cons] at hx
    obtain ⟨h1, h2, h3⟩ := ih hx.2
    rw [addMutCarry]
    by_cases h : x = U32MAX
    · rw [if_pos h]
      refine ⟨?_, ?_, ?_⟩
      · rw [limbs_cons]; exact ⟨by omega, h1⟩
      · simp [h2]
      · simp only [val_cons, List.length_cons, pow_succ] at *
        nlinarith
    · rw [if_neg h]
      refine ⟨?_, ?_, ?_⟩
      · rw [limbs_cons]; exact ⟨by omega, hx.2⟩
      · simp
      · simp; omega

theorem addMutLoop_spec (xs ys : List Nat) (c : Bool) (hx : Limbs xs) (hy : Limbs ys) :
    ∃ t c', addMutLoop xs ys c = pure (t, c') ∧ Limbs t ∧ t.length = max xs.length ys.length ∧
      val t + B32 ^ t.length * c'.toNat = val xs + val ys + c.toNat := by
  induction xs generalizing ys c with
  | nil =>
    cases ys with
    | nil => exact ⟨[], c, by rw [addMutLoop], limbs_nil, rfl, by simp⟩
    | cons y ys =>
      obtain ⟨t, c', h1, h2, h3, h4⟩ := addMutPush_spec (y :: ys) c hy
      refine ⟨t, c', by rw [addMutLoop, h1], h2, by simpa using h3, ?_⟩
      rw [h3]; simpa using h4
  | cons x xs ih =>
    cases ys with
    | nil =>
      cases c with
      | true =>
        obtain ⟨h1, h2, h3⟩ := addMutCarry_spec (x :: xs) hx
        refine ⟨_, _, by rw [addMutLoop, if_pos rfl], h1, by simpa using h2, ?_⟩
        rw [h2, h3]; simp
      | false =>
        exact ⟨x :: xs, false, by simp [addMutLoop], hx, by simp, by simp⟩
    | cons y ys =>
      rw [limbs_cons] at hx hy
      have hs : ∀ s, x + y + c.toNat = s →
        ∃ t c', addMutLoop xs ys (decide (B32 ≤ s)) = pure (t, c') ∧ Limbs (s % B32 :: t) ∧
          (s % B32 :: t).length = max (x :: xs).length (y :: ys).length ∧
          val (s % B32 :: t) + B32 ^ (s % B32 :: t).length * c'.toNat
            = val (x :: xs) + val (y :: ys) + c.toNat := by
        intro s hs
        obtain ⟨t, c', h1, h2, h3, h4⟩ := ih ys (decide (B32 ≤ s)) hx.2 hy.2
        refine ⟨t, c', h1, ?_, ?_, ?_⟩
        · rw [limbs_cons]; exact ⟨by omega, h2⟩
        · simp [h3]
        · have hd : s % B32 + B32 * (decide (B32 ≤ s)).toNat = s := by
            have : c.toNat ≤ 1 := Bool.toNat_le c
            by_cases hb : B32 ≤ s
            · simp [hb]; omega
            · simp [hb]; omega
          simp only [val_cons, List.length_cons, pow_succ] at *
          nlinarith
      obtain ⟨t, c', h1, h2, h3, h4⟩ := hs _ rfl
      refine ⟨_, c', ?_, h2, h3, h4⟩
      rw [addMutLoop]
      cases c with
      | true =>
        simp only [if_true, Bool.toNat_true] at *
        by_cases hc : x + y < B32
        · rw [if_pos hc]
          by_cases hc2 : x + y + 1 < B32
          · rw [if_pos hc2]
            rw [show decide (B32 ≤ x + y + 1) = false by simp; omega] at h1
            rw [h1, pure_bind, Nat.mod_eq_of_lt hc2]
          · rw [if_neg hc2]
            rw [show decide (B32 ≤ x + y + 1) = true by simp; omega] at h1
            rw [u64Add, uAdd_eq (by omega), pure_bind, uAdd_eq (by omega), pure_bind, h1, pure_bind,
              Nat.mod_mod]
        · rw [if_neg hc]
          rw [show decide (B32 ≤ x + y + 1) = true by simp; omega] at h1
          rw [u64Add, uAdd_eq (by omega), pure_bind, uAdd_eq (by omega), pure_bind, h1, pure_bind,
              Nat.mod_mod]
      | false =>
        simp only [Bool.toNat_false, Nat.add_zero] at *
        by_cases hc : x + y < B32
        · rw [if_pos hc, if_neg (by simp)]
          rw [show decide (B32 ≤ x + y) = false by simp; omega] at h1
          rw [h1, pure_bind, Nat.mod_eq_of_lt hc]
        · rw [if_neg hc, if_neg (by simp)]
          rw [show decide (B32 ≤ x + y) = true by simp; omega] at h1
          rw [u64Add, uAdd_eq (by omega), pure_bind, h1, pure_bind, Nat.mod_mod]

theorem add_mut_eq {a b : UBig} (ha : Valid a) (hb : Valid b) :
    add_mut a b = pure (ofNat (val a + val b)) := by
  obtain ⟨t, c, h1, h2, h3, h4⟩ := addMutLoop_spec a b false ha.limbs hb.limbs
  have ha0 := List.length_pos_iff.mpr ha.ne
  have ht : t ≠ [] := by
    intro h; subst h; simp at h3; omega
  rw [add_mut, h1, pure_bind]
  simp only [Bool.toNat_false, Nat.add_zero] at h4
  cases c with
  | true =>
    simp only [if_true]
    have hv : val (t ++ [1]) = val a + val b := by
      rw [val_append]; simpa using h4
    rw [← hv]
    congr 1
    apply Valid.eq_ofNat
    refine ⟨by simp, ?_, fun _ => by simp⟩
    have : Limbs (t ++ [1]) := limbs_append.mpr ⟨h2, by simp [limbs_nil]⟩
    exact this
  | false =>
    simp only [Bool.false_eq_true, if_false]
    simp only [Bool.toNat_false, Nat.mul_zero, Nat.add_zero] at h4
    rw [← h4]
    congr 1
    apply Valid.eq_ofNat
    apply valid_of_val_ge ht h2
    intro hl
    rw [h3] at hl ⊢
    rw [h4]
    rcases le_total a.length b.length with h | h
    · rw [max_eq_right h] at hl ⊢
      have := hb.val_ge hl; omega
    · rw [max_eq_left h] at hl ⊢
      have := ha.val_ge hl; omega

theorem add_u32_mut_eq {a : UBig} {o : Nat} (ha : Valid a) (ho : o < B32) :
    add_u32_mut a o = pure (ofNat (val a + o)) := by
  obtain ⟨hne, hl, ht⟩ := id ha
  cases a with
  | nil => exact absurd rfl hne
  | cons x xs =>
    have hl' : Limbs (x :: xs) := hl
    rw [limbs_cons] at hl'
    rw [add_u32_mut]
    by_cases h : x + o < B32
    · rw [if_pos h]
      have hv : val ((x + o) :: xs) = val (x :: xs) + o := by simp; ring
      rw [← hv]
      congr 1
      apply Valid.eq_ofNat
      apply valid_of_val_ge (by simp)
      · rw [limbs_cons]; exact ⟨h, hl'.2⟩
      · intro h1
        have := ha.val_ge (by simpa using h1)
        rw [hv]; simp only [List.length_cons] at *; omega
    · rw [if_neg h, u64Add, uAdd_eq (by omega), pure_bind, v32_to_v64]
      obtain ⟨t, k1, k2, k3, k4⟩ := v64_to_v32_spec (x + o) xs (by omega)
        (fun y hy => by have := hl'.2 y hy; omega)
      rw [k1]
      have hv : val t = val (x :: xs) + o := by rw [k3]; simp; ring
      rw [← hv]
      congr 1
      apply Valid.eq_ofNat
      apply valid_of_val_ge _ k2
      · intro h1
        rcases k4 with k4 | ⟨k4, k5⟩
        · have := ha.val_ge (by rw [k4] at h1; simpa using h1)
          rw [hv, k4]; simp only [List.length_cons] at *; omega
        · rw [k4]; simpa using k5
      · intro hh; subst hh; simp at k4

theorem add_u32_eq {a : UBig} {o : Nat} (ha : Valid a) (ho : o < B32) :
    add_u32 a o = pure (ofNat (val a + o)) := add_u32_mut_eq ha ho

/-! ### subtraction -/

theorem subLoop_spec (xs ys : List Nat) (c : Bool) (hx : Limbs xs) (hy : Limbs ys)
    (hl : ys.length ≤ xs.length) :
    ∃ t r c', subLoop xs ys c = pure (t, r, c') ∧ Limbs t ∧ Limbs r ∧ t.length = ys.length ∧
      t.length + r.length = xs.length ∧
      val t + B32 ^ ys.length * val r + val ys + c.toNat = val xs + B32 ^ ys.length * c'.toNat := by
  induction ys generalizing xs c with
  | nil =>
    refine ⟨[], xs, c, by rw [subLoop], limbs_nil, hx, rfl, by simp, by simp⟩
  | cons y ys ih =>
    cases xs with
    | nil => simp at hl
    | cons x xs =>
      rw [limbs_cons] at hx hy
      simp only [List.length_cons, Nat.add_le_add_iff_right] at hl
      have key : ∀ (d : Nat) (c1 : Bool), d < B32 → d + y + c.toNat = x + B32 * c1.toNat →
          ∃ t r c', subLoop xs ys c1 = pure (t, r, c') ∧ Limbs (d :: t) ∧ Limbs r ∧
            (d :: t).length = (y :: ys).length ∧
            (d :: t).length + r.length = (x :: xs).length ∧
            val (d :: t) + B32 ^ (y :: ys).length * val r + val (y :: ys) + c.toNat
              = val (x :: xs) + B32 ^ (y :: ys).length * c'.toNat := by
        intro d c1 hd he
        obtain ⟨t, r, c', h1, h2, h3, h4, h5, h6⟩ := ih xs c1 hx.2 hy.2 hl
        refine ⟨t, r, c', h1, limbs_cons.mpr ⟨hd, h2⟩, h3, by simp [h4], by simp; omega, ?_⟩
        simp only [val_cons, List.length_cons, pow_succ] at *
        nlinarith
      cases c with
      | true =>
        rw [subLoop]
        by_cases h : y ≠ U32MAX ∧ x ≥ y + 1
        · obtain ⟨t, r, c', h1, h2⟩ := key (x - (y + 1)) false (by omega) (by simp; omega)
          refine ⟨_, r, c', ?_, h2⟩
          rw [if_pos h, u32Add, uAdd_eq (by omega), pure_bind, csub, if_pos (by omega), pure_bind, h1,
            pure_bind]
        · obtain ⟨t, r, c', h1, h2⟩ := key (U32MAX - (y - x)) true (by omega) (by simp; omega)
          refine ⟨_, r, c', ?_, h2⟩
          rw [if_neg h, csub, if_pos (by omega), pure_bind, uSub_eq (by omega), pure_bind, h1,
            pure_bind]
      | false =>
        rw [subLoop]
        by_cases h : x ≥ y
        · obtain ⟨t, r, c', h1, h2⟩ := key (x - y) false (by omega) (by simp; omega)
          refine ⟨_, r, c', ?_, h2⟩
          rw [if_pos h, csub, if_pos (by omega), pure_bind, h1, pure_bind]
        · obtain ⟨t, r, c', h1, h2⟩ := key (U32MAX - (y - x) + 1) true (by omega) (by simp; omega)
          refine ⟨_, r, c', ?_, h2⟩
          rw [if_neg h, csub, if_pos (by omega), pure_bind, uSub_eq (by omega), pure_bind,
            u32Add, uAdd_eq (by omega), pure_bind, h1, pure_bind]

theorem subLoop_index (xs ys : List Nat) (c : Bool) (hx : Limbs xs) (hy : Limbs ys)
    (hl : xs.length < ys.length) : subLoop xs ys c = throw .index := by
  induction ys generalizing xs c with
  | nil => simp at hl
  | cons y ys ih =>
    cases xs with
    | nil => rw [subLoop]
    | cons x xs =>
      rw [limbs_cons] at hx hy
      simp only [List.length_cons, Nat.add_lt_add_iff_right] at hl
      have := fun c => ih xs c hx.2 hy.2 hl
      cases c with
      | true =>
        rw [subLoop]
        by_cases h : y ≠ U32MAX ∧ x ≥ y + 1
        · rw [if_pos h, u32Add, uAdd_eq (by omega), pure_bind, csub, if_pos (by omega), pure_bind, this]
          rfl
        · rw [if_neg h, csub, if_pos (by omega), pure_bind, uSub_eq (by omega), pure_bind, this]
          rfl
      | false =>
        rw [subLoop]
        by_cases h : x ≥ y
        · rw [if_pos h, csub, if_pos (by omega), pure_bind, this]; rfl
        · rw [if_neg h, csub, if_pos (by omega), pure_bind, uSub_eq (by omega), pure_bind,
            u32Add, uAdd_eq (by omega), pure_bind, this]; rfl

theorem subBorrow_spec (r : List Nat) (hr : Limbs r) (hpos : 0 < val r) :
    Limbs (subBorrow r) ∧ (subBorrow r).length = r.length ∧ val (subBorrow r) + 1 = val r := by
  induction r with
  | nil => simp at hpos
  | cons x xs ih =>
    rw [limbs_cons] at hr
    rw [subBorrow]
    by_cases h : x > 0
    · rw [if_pos h]
      refine ⟨limbs_cons.mpr ⟨by omega, hr.2⟩, by simp, by simp; omega⟩
    · rw [if_neg h]
      have h0 : x = 0 := by omega
      subst h0
      rw [val_cons] at hpos
      obtain ⟨h1, h2, h3⟩ := ih hr.2 (by omega)
      refine ⟨limbs_cons.mpr ⟨by omega, h1⟩, by simp [h2], by simp; omega⟩

theorem length_le_of_val_le {a b : UBig} (ha : Valid a) (hb : Valid b) (h : val b ≤ val a) :
    b.length ≤ a.length := by
  rw [ha.eq_ofNat, hb.eq_ofNat]; exact length_ofNat_mono h

theorem sub_mut_eq {a b : UBig} (ha : Valid a) (hb : Valid b) (h : val b ≤ val a) :
    sub_mut a b = pure (ofNat (val a - val b)) := by
  have hlen := length_le_of_val_le ha hb h
  obtain ⟨t, r, c, h1, h2, h3, h4, h5, h6⟩ := subLoop_spec a b false ha.limbs hb.limbs hlen
  rw [sub_mut, h1, pure_bind]
  have htl := val_lt h2
  have hb0 := List.length_pos_iff.mpr hb.ne
  have htne : t ≠ [] := by intro hh; subst hh; simp at h4; omega
  rw [h4] at htl
  simp only [Bool.toNat_false, Nat.add_zero] at h6
  have hp : 0 < B32 ^ b.length := Nat.pow_pos (by omega)
  cases c with
  | true =>
    simp only [if_true]
    simp only [Bool.toNat_true, Nat.mul_one] at h6
    have hrpos : 0 < val r := by
      rcases Nat.eq_zero_or_pos (val r) with h0 | h0
      · rw [h0] at h6; omega
      · exact h0
    have hrl : r ≠ [] := by intro hh; subst hh; simp at hrpos
    have := List.length_pos_iff.mpr hrl
    rw [if_neg (by omega)]
    obtain ⟨k1, k2, k3⟩ := subBorrow_spec r h3 hrpos
    rw [remove_suffix_0_eq (by simp [htne]) (limbs_append.mpr ⟨h2, k1⟩)]
    congr 2
    rw [val_append, h4]
    have : val r = val (subBorrow r) + 1 := k3.symm
    rw [this] at h6
    have : B32 ^ b.length * (val (subBorrow r) + 1) = B32 ^ b.length * val (subBorrow r) + B32 ^ b.length := by ring
    omega
  | false =>
    simp only [Bool.false_eq_true, if_false]
    rw [remove_suffix_0_eq (by simp [htne]) (limbs_append.mpr ⟨h2, h3⟩)]
    congr 2
    rw [val_append, h4]
    simp only [Bool.toNat_false, Nat.mul_zero] at h6
    omega

theorem sub_mut_panics {a b : UBig} (ha : Valid a) (hb : Valid b) (h : val a < val b) :
    Panics (sub_mut a b) := by
  rw [sub_mut]
  by_cases hlen : b.length ≤ a.length
  · obtain ⟨t, r, c, h1, h2, h3, h4, h5, h6⟩ := subLoop_spec a b false ha.limbs hb.limbs hlen
    rw [h1, pure_bind]
    simp only [Bool.toNat_false, Nat.add_zero] at h6
    have hble := length_le_of_val_le hb ha h.le
    have hr : r = [] := List.length_eq_zero_iff.mp (by omega)
    subst hr
    cases c with
    | true =>
      simp only [if_true]
      rw [if_pos hble]
      exact ⟨_, rfl⟩
    | false => simp at h6; omega
  · rw [subLoop_index a b false ha.limbs hb.limbs (by omega)]
    exact ⟨.index, rfl⟩

theorem sub_eq {a b : UBig} (ha : Valid a) (hb : Valid b) (h : val b ≤ val a) :
    sub a b = pure (ofNat (val a - val b)) := sub_mut_eq ha hb h

theorem subU32Borrow_spec (r : List Nat) (hr : Limbs r) (hpos : 0 < val r) :
    ∃ t, subU32Borrow r = pure t ∧ Limbs t ∧ val t + 1 = val r := by
  induction r with
  | nil => simp at hpos
  | cons x xs ih =>
    rw [limbs_cons] at hr
    rw [subU32Borrow]
    by_cases h : x = 0
    · rw [if_pos h]
      rw [val_cons] at hpos
      obtain ⟨t, h1, h2, h3⟩ := ih hr.2 (by omega)
      rw [h1, pure_bind]
      exact ⟨_, rfl, limbs_cons.mpr ⟨by omega, h2⟩, by simp; omega⟩
    · rw [if_neg h, uSub_eq (by omega), pure_bind]
      exact ⟨_, rfl, limbs_cons.mpr ⟨by omega, hr.2⟩, by simp; omega⟩

theorem sub_u32_mut_eq {a : UBig} {o : Nat} (ha : Valid a) (ho : o < B32) (h : o ≤ val a) :
    sub_u32_mut a o = pure (ofNat (val a - o)) := by
  obtain ⟨hne, hl, ht⟩ := id ha
  cases a with
  | nil => exact absurd rfl hne
  | cons x xs =>
    have hl' : Limbs (x :: xs) := hl
    rw [limbs_cons] at hl'
    rw [sub_u32_mut]
    by_cases hx : x ≥ o
    · rw [if_pos hx, uSub_eq hx, pure_bind]
      have hv : val ((x - o) :: xs) = val (x :: xs) - o := by simp; omega
      rw [← hv]; congr 1
      apply Valid.eq_ofNat
      refine ⟨by simp, ?_, fun hlen => ?_⟩
      · intro d hd; rw [List.mem_cons] at hd
        rcases hd with rfl | hd
        · omega
        · exact hl'.2 d hd
      · have := ht (by simpa using hlen)
        cases xs with
        | nil => simp at hlen
        | cons z zs => simpa using this
    · rw [if_neg hx]
      rw [val_cons] at h
      have hxs : 0 < val xs := by omega
      have hlen : (x :: xs).length > 1 := by
        cases xs with
        | nil => simp at hxs
        | cons => simp
      obtain ⟨t, h1, h2, h3⟩ := subU32Borrow_spec xs hl'.2 hxs
      rw [if_pos hlen, h1, pure_bind, uSub_eq (by omega), pure_bind, u32Add, uAdd_eq (by omega), pure_bind,
        uAdd_eq (by omega), pure_bind, remove_suffix_0_eq (by simp)]
      · congr 2; simp; omega
      · exact limbs_cons.mpr ⟨by omega, h2⟩

theorem sub_u32_mut_panics {a : UBig} {o : Nat} (ha : Valid a) (h : val a < o) (ho : o < B32) :
    Panics (sub_u32_mut a o) := by
  obtain ⟨hne, hl, ht⟩ := id ha
  cases a with
  | nil => exact absurd rfl hne
  | cons x xs =>
    rw [sub_u32_mut]
    by_cases hlen : (x :: xs).length > 1
    · have := ha.val_ge hlen
      have h2 : B32 ^ 1 ≤ B32 ^ ((x :: xs).length - 1) := Nat.pow_le_pow_right (by omega) (by omega)
      omega
    · rw [val_cons] at h
      rw [if_neg (by omega), if_neg hlen]
      exact ⟨_, rfl⟩

end UBig
end Hmath
