import Verif.Model.Convert
import Verif.Props.Str
import Verif.Props.Matrix
import Verif.Props.Poly

/-!
# Properties of the `From` / `TryFrom` conversions (C18, C55) and of `Complex` (C56)
-/

namespace Hmath
namespace Props

/-- The conversion of the integer `z` to a machine type with the values `lo, …, hi`: the value itself
when the type has it, an error otherwise; it returns in both cases. -/
def ConvertsTo (lo hi z : Int) (m : M (Except ConvErr Int)) : Prop :=
  (lo ≤ z ∧ z ≤ hi → m = pure (.ok z)) ∧ (¬(lo ≤ z ∧ z ≤ hi) → ∃ e, m = pure (.error e))

private theorem tryInto_conv {lo hi lo' hi' z : Int} {e : ConvErr} (h1 : lo' ≤ lo ∨ lo' ≤ z)
    (h2 : hi ≤ hi') :
    ConvertsTo lo hi z (pure (UBig.tryInto lo hi
      (if lo' ≤ z ∧ z ≤ hi' then .ok z else .error e))) := by
  constructor
  · rintro ⟨a, b⟩
    rw [if_pos ⟨by omega, by omega⟩]
    simp only [UBig.tryInto]
    rw [if_pos ⟨a, b⟩]
  · intro h
    by_cases h' : lo' ≤ z ∧ z ≤ hi'
    · rw [if_pos h']
      simp only [UBig.tryInto]
      rw [if_neg h]
      exact ⟨_, rfl⟩
    · rw [if_neg h']
      exact ⟨_, rfl⟩

private theorem okInt_ite {n k : Nat} {e : ConvErr} :
    okInt (if n < k then .ok n else .error e) =
      if (0 : Int) ≤ n ∧ (n : Int) ≤ k - 1 then .ok (n : Int) else .error e := by
  by_cases h : n < k
  · rw [if_pos h, if_pos (by omega)]; rfl
  · rw [if_neg h, if_neg (by omega)]; rfl

/-! ## C18: out of `UBigInt` -/

/-- Every conversion of a `UBigInt` to a machine integer returns the value when it is in the range
of the type and an error otherwise (`usize`: see `C18_usize_partial`). -/
theorem C18_ubi_into {a : UBig} (ha : Valid a) :
    ConvertsTo 0 (2 ^ 8 - 1) (val a) (UBig.to_u8 a) ∧
    ConvertsTo 0 (2 ^ 16 - 1) (val a) (UBig.to_u16 a) ∧
    ConvertsTo (-2 ^ 7) (2 ^ 7 - 1) (val a) (UBig.to_i8 a) ∧
    ConvertsTo (-2 ^ 15) (2 ^ 15 - 1) (val a) (UBig.to_i16 a) ∧
    ConvertsTo (-2 ^ 31) (2 ^ 31 - 1) (val a) (UBig.to_i32 a) ∧
    ConvertsTo (-2 ^ 63) (2 ^ 63 - 1) (val a) (UBig.to_i64 a) ∧
    ConvertsTo (-2 ^ 63) (2 ^ 63 - 1) (val a) (UBig.to_isize a) ∧
    ConvertsTo (-2 ^ 127) (2 ^ 127 - 1) (val a) (UBig.to_i128 a) := by
  simp only [UBig.to_u8, UBig.to_u16, UBig.to_i8, UBig.to_i16, UBig.to_i32, UBig.to_i64,
    UBig.to_isize, UBig.to_i128, UBig.to_u32_eq ha, UBig.to_u64_eq ha, UBig.to_u128_eq ha, pure_bind,
    okInt_ite]
  refine ⟨?_, ?_, ?_, ?_, ?_, ?_, ?_, ?_⟩
  all_goals
    refine tryInto_conv (.inr (by omega)) ?_
    norm_num
example : UBig.to_u8 [255] = pure (.ok 255) ∧ ∃ e, UBig.to_u8 [256] = pure (.error e) :=
  ⟨(C18_ubi_into (a := [255]) (by decide)).1.1 (by decide),
    (C18_ubi_into (a := [256]) (by decide)).1.2 (by decide)⟩

/-- Every signed machine integer converts to the `UBigInt` of the same value, and negative ones are
rejected. -/
theorem C18_ubi_from {n : Int} :
    (∀ w ∈ [UBig.from_i8, UBig.from_i16, UBig.from_i32, UBig.from_i64, UBig.from_isize, UBig.from_i128],
      n < 0 → ∃ e, w n = .error e) ∧
    (0 ≤ n → n < 2 ^ 31 → ∀ w ∈ [UBig.from_i8, UBig.from_i16, UBig.from_i32],
      ∃ a, w n = .ok a ∧ Valid a ∧ val a = n) ∧
    (0 ≤ n → n < 2 ^ 63 → ∀ w ∈ [UBig.from_i64, UBig.from_isize],
      ∃ a, w n = .ok a ∧ Valid a ∧ val a = n) ∧
    (0 ≤ n → n < 2 ^ 127 → ∃ a, UBig.from_i128 n = .ok a ∧ Valid a ∧ val a = n) := by
  refine ⟨?_, ?_, ?_, ?_⟩
  · intro w hw h
    simp only [List.mem_cons, List.not_mem_nil, or_false] at hw
    rcases hw with rfl | rfl | rfl | rfl | rfl | rfl <;>
      exact ⟨.tryFromInt, by
        simp only [UBig.from_i8, UBig.from_i16, UBig.from_i32, UBig.from_i64, UBig.from_isize,
          UBig.from_i128, unsignedTryFrom, if_pos h]; rfl⟩
  · intro h0 h1 w hw
    norm_num at h1
    simp only [List.mem_cons, List.not_mem_nil, or_false] at hw
    rcases hw with rfl | rfl | rfl <;>
      exact ⟨UBig.from_u32 n.toNat, by
        simp only [UBig.from_i8, UBig.from_i16, UBig.from_i32, unsignedTryFrom, if_neg (not_lt.2 h0)]
        rfl, by rw [UBig.from_u32_eq (by omega)]; exact valid_ofNat _, by
        rw [UBig.from_u32_eq (by omega), val_ofNat]; omega⟩
  · intro h0 h1 w hw
    norm_num at h1
    simp only [List.mem_cons, List.not_mem_nil, or_false] at hw
    rcases hw with rfl | rfl <;>
      exact ⟨UBig.from_u64 n.toNat, by
        simp only [UBig.from_i64, UBig.from_isize, unsignedTryFrom, if_neg (not_lt.2 h0)]
        rfl, by rw [UBig.from_u64_eq (by omega)]; exact valid_ofNat _, by
        rw [UBig.from_u64_eq (by omega), val_ofNat]; omega⟩
  · intro h0 h1
    norm_num at h1
    exact ⟨UBig.from_u128 n.toNat, by
        simp only [UBig.from_i128, unsignedTryFrom, if_neg (not_lt.2 h0)]
        rfl, by rw [UBig.from_u128_eq (by omega)]; exact valid_ofNat _, by
        rw [UBig.from_u128_eq (by omega), val_ofNat]; omega⟩
example : ∃ a, UBig.from_i64 (2 ^ 40) = .ok a ∧ Valid a ∧ val a = (2 ^ 40 : Int) :=
  (C18_ubi_from (n := 2 ^ 40)).2.2.1 (by norm_num) (by norm_num) _ (by simp)

/-- `bool`, `u8`, `u16` into `UBigInt`, and a `UBigInt` as a truth value. -/
theorem C18_ubi_small (n : Nat) (a : UBig) (b : Bool) :
    (n < 2 ^ 8 → Valid (UBig.from_u8 n) ∧ val (UBig.from_u8 n) = n) ∧
    (n < 2 ^ 16 → Valid (UBig.from_u16 n) ∧ val (UBig.from_u16 n) = n) ∧
    Valid (UBig.from_bool b) ∧ val (UBig.from_bool b) = b.toNat ∧
    (Valid a → UBig.to_bool a = decide (val a ≠ 0)) := by
  refine ⟨fun h => ?_, fun h => ?_, ?_, ?_, fun h => ?_⟩
  · rw [UBig.from_u8, UBig.from_u32_eq (by omega)]; exact ⟨valid_ofNat _, val_ofNat _⟩
  · rw [UBig.from_u16, UBig.from_u32_eq (by omega)]; exact ⟨valid_ofNat _, val_ofNat _⟩
  · cases b <;> decide
  · cases b <;> decide
  · rw [UBig.to_bool, UBig.is_zero_eq h]; simp
example : UBig.to_bool [0, 1] = true := by
  have := (C18_ubi_small 0 [0, 1] false).2.2.2.2 (by decide)
  rw [this]; decide

/-! ## C18: out of and into `BigInt` -/

/-- The conversions of a `BigInt` to machine integers; `i128` misses `-2^127`
(`C18_to_i128_counterexample`). -/
theorem C18_bi_into {a : BigI} (ha : IValid a) :
    ConvertsTo (-2 ^ 7) (2 ^ 7 - 1) (ival a) (BigI.to_i8 a) ∧
    ConvertsTo (-2 ^ 15) (2 ^ 15 - 1) (ival a) (BigI.to_i16 a) ∧
    ConvertsTo (-2 ^ 63) (2 ^ 63 - 1) (ival a) (BigI.to_isize a) ∧
    ConvertsTo 0 (2 ^ 8 - 1) (ival a) (BigI.to_u8 a) ∧
    ConvertsTo 0 (2 ^ 16 - 1) (ival a) (BigI.to_u16 a) ∧
    ConvertsTo 0 (2 ^ 32 - 1) (ival a) (BigI.to_u32 a) ∧
    ConvertsTo 0 (2 ^ 64 - 1) (ival a) (BigI.to_u64 a) ∧
    ConvertsTo 0 (2 ^ 64 - 1) (ival a) (BigI.to_usize a) ∧
    ConvertsTo 0 (2 ^ 128 - 1) (ival a) (BigI.to_u128 a) := by
  rw [ha.eq_ofInt]
  simp only [ival_ofInt]
  generalize ival a = z
  have e : ∀ z : Int, (-170141183460469231731687303715884105728 < z ∧
      z ≤ 170141183460469231731687303715884105727) = (-170141183460469231731687303715884105727 ≤ z ∧
      z ≤ 170141183460469231731687303715884105727) := fun z => propext (by omega)
  simp only [BigI.to_i8, BigI.to_i16, BigI.to_isize, BigI.to_u8, BigI.to_u16, BigI.to_u32, BigI.to_u64,
    BigI.to_usize, BigI.to_i32_c, BigI.to_i64_c, BigI.to_i128_c, pure_bind, e]
  refine ⟨?_, ?_, ?_, ?_, ?_, ?_, ?_, ?_, ?_⟩
  · exact tryInto_conv (.inl (by norm_num)) (by norm_num)
  · exact tryInto_conv (.inl (by norm_num)) (by norm_num)
  · exact tryInto_conv (.inl (by norm_num)) (by norm_num)
  · exact tryInto_conv (.inl (by norm_num)) (by norm_num)
  · exact tryInto_conv (.inl (by norm_num)) (by norm_num)
  · exact tryInto_conv (.inl (by norm_num)) (by norm_num)
  · exact tryInto_conv (.inl (by norm_num)) (by norm_num)
  · exact tryInto_conv (.inl (by norm_num)) (by norm_num)
  · norm_num
    rw [BigI.to_u128, BigI.is_neg, BigI.neg_ofInt, BigI.mag_ofInt, UBig.to_u128_c, pure_bind]
    constructor
    · rintro ⟨h1, h2⟩
      rw [if_neg (by simpa using h1), if_pos (by omega)]
      exact congrArg (fun x => pure (Except.ok x)) (by omega)
    · intro h
      by_cases h0 : z < 0
      · exact ⟨_, if_pos (by simpa using h0)⟩
      · rw [if_neg (by simpa using h0), if_neg (by omega)]
        exact ⟨_, rfl⟩
example : BigI.to_i8 ⟨[128], true⟩ = pure (.ok (-128)) ∧ ∃ e, BigI.to_u32 ⟨[1], true⟩ = pure (.error e) :=
  ⟨(C18_bi_into (a := ⟨[128], true⟩) (by decide)).1.1 (by decide),
    (C18_bi_into (a := ⟨[1], true⟩) (by decide)).2.2.2.2.2.1.2 (by decide)⟩

/-- Machine integers into `BigInt`: exact for every value of `i8`, `i16`, `u8`, `u16`, `u32`, `u64`,
`u128`, `usize`, `bool`; the minimum of `isize` panics like that of `i64`
(`C18_signed_min_counterexample`). -/
theorem C18_bi_from {n : Int} {k : Nat} (b : Bool) :
    (-2 ^ 7 ≤ n → n < 2 ^ 7 → ComputesI (BigI.from_i8 n) n) ∧
    (-2 ^ 15 ≤ n → n < 2 ^ 15 → ComputesI (BigI.from_i16 n) n) ∧
    (k < 2 ^ 8 → ComputesI (BigI.from_u8 k) k) ∧
    (k < 2 ^ 16 → ComputesI (BigI.from_u16 k) k) ∧
    (k < 2 ^ 32 → ComputesI (BigI.from_u32 k) k) ∧
    (k < 2 ^ 64 → IValid (BigI.from_u64 k) ∧ ival (BigI.from_u64 k) = k) ∧
    (k < 2 ^ 128 → IValid (BigI.from_u128 k) ∧ ival (BigI.from_u128 k) = k) ∧
    (k < 2 ^ 64 → IValid (BigI.from_usize k) ∧ ival (BigI.from_usize k) = k) ∧
    (-2 ^ 63 < n → n < 2 ^ 63 → ComputesI (BigI.from_isize n) n) ∧
    IValid (BigI.from_bool b) ∧ ival (BigI.from_bool b) = b.toNat := by
  have key : ∀ k : Nat, BigI.from_ubi (ofNat k) false = ofInt k := fun k =>
    BigI.from_ubi_c (by rw [Int.natAbs_natCast]) (fun _ => by simp)
  refine ⟨fun h1 h2 => ?_, fun h1 h2 => ?_, fun h => ?_, fun h => ?_, fun h => ?_, fun h => ?_,
    fun h => ?_, fun h => ?_, fun h1 h2 => ?_, by cases b <;> decide, by cases b <;> decide⟩
  · norm_num at h1 h2
    exact computesI_of_eq (BigI.from_i32_c ⟨by omega, by omega⟩ (by omega))
  · norm_num at h1 h2
    exact computesI_of_eq (BigI.from_i32_c ⟨by omega, by omega⟩ (by omega))
  · norm_num at h
    exact computesI_of_eq (BigI.from_i32_c ⟨by omega, by omega⟩ (by omega))
  · norm_num at h
    exact computesI_of_eq (BigI.from_i32_c ⟨by omega, by omega⟩ (by omega))
  · norm_num at h
    exact computesI_of_eq (BigI.from_i64_c (by omega) (by omega))
  · rw [BigI.from_u64, UBig.from_u64_eq (by omega), key]; exact ⟨ivalid_ofInt _, ival_ofInt _⟩
  · rw [BigI.from_u128, UBig.from_u128_eq (by omega), key]; exact ⟨ivalid_ofInt _, ival_ofInt _⟩
  · rw [BigI.from_usize, UBig.from_u64_eq (by omega), key]; exact ⟨ivalid_ofInt _, ival_ofInt _⟩
  · norm_num at h1 h2
    exact computesI_of_eq (BigI.from_i64_c (by omega) (by omega))
example : ComputesI (BigI.from_i8 (-128)) (-128) :=
  (C18_bi_from (n := -128) (k := 0) true).1 (by norm_num) (by norm_num)
example : ival (BigI.from_u128 (2 ^ 128 - 1)) = 2 ^ 128 - 1 := by
  have := ((C18_bi_from (n := 0) (k := 2 ^ 128 - 1) true).2.2.2.2.2.2.1 (by norm_num)).2
  rw [this]; norm_num

/-- Between `UBigInt` and `BigInt`: `from` is exact, `try_into` fails exactly on negative numbers. -/
theorem C18_ubi_bi {a : UBig} {x : BigI} (ha : Valid a) (hx : IValid x) :
    (IValid (BigI.from_ubigint a) ∧ ival (BigI.from_ubigint a) = val a) ∧
    (0 ≤ ival x → ∃ b, UBig.from_bi x = .ok b ∧ Valid b ∧ val b = ival x) ∧
    (ival x < 0 → ∃ e, UBig.from_bi x = .error e) ∧
    (BigI.to_bool x = decide (ival x ≠ 0)) := by
  refine ⟨?_, fun h => ?_, fun h => ?_, ?_⟩
  · have h := BigI.from_ubi_c (k := val a) (b := false) (z := val a) (by rw [Int.natAbs_natCast])
      (fun _ => by simp)
    rw [BigI.from_ubigint, ha.eq_ofNat, h, val_ofNat]
    exact ⟨ivalid_ofInt _, ival_ofInt _⟩
  · have hn : x.neg = false := by
      rcases hb : x.neg with _ | _
      · rfl
      · have := hx.sgn hb
        rw [ival, hb] at h
        simp only [if_true] at h
        omega
    exact ⟨x.mag, by rw [UBig.from_bi, BigI.to_ubi, hn]; rfl, hx.mag, by rw [ival, hn]; rfl⟩
  · have hn : x.neg = true := by
      rcases hb : x.neg with _ | _
      · rw [ival, hb] at h
        simp only [Bool.false_eq_true, if_false] at h
        omega
      · rfl
    exact ⟨.notInRange, by rw [UBig.from_bi, BigI.to_ubi, hn]; rfl⟩
  · rw [hx.eq_ofInt, BigI.to_bool, BigI.is_zero_c, ival_ofInt]
    simp
example : ∃ e, UBig.from_bi ⟨[3], true⟩ = .error e :=
  (C18_ubi_bi (a := [1]) (x := ⟨[3], true⟩) (by decide) (by decide)).2.2.1 (by decide)

/-! ## C55: `Ratio` and machine integers -/

/-- The integer part, towards zero. -/
def truncQ (q : ℚ) : ℤ := if 0 ≤ q then ⌊q⌋ else ⌈q⌉

private theorem qtrunc_eq (q : ℚ) : Ratio.qtrunc q = truncQ q := by
  unfold truncQ
  split_ifs with h
  · exact Ratio.qtrunc_nonneg _ h
  · exact Ratio.qtrunc_nonpos _ (le_of_not_ge h)

private theorem toInt_conv {lo hi : Int} {f : BigI → M (Except ConvErr Int)} {x : Ratio} (hx : RValid x)
    (h : ∀ a, IValid a → ConvertsTo lo hi (ival a) (f a)) :
    ConvertsTo lo hi (truncQ (rval x)) (Ratio.toInt f x) := by
  have := h (ofInt (Ratio.qtrunc (rval x))) (ivalid_ofInt _)
  rw [ival_ofInt, qtrunc_eq] at this
  rw [hx.eq_ofRat, rval_ofRat, Ratio.toInt, Ratio.truncate_bi_c, pure_bind, qtrunc_eq]
  exact this

/-- A `Ratio` converts to every machine integer type by truncation towards zero, and is rejected
exactly when the truncated value is outside the type (`i128`: except `-2^127`, which is rejected
too). -/
theorem C55_into {x : Ratio} (hx : RValid x) :
    ConvertsTo 0 (2 ^ 8 - 1) (truncQ (rval x)) (Ratio.to_u8 x) ∧
    ConvertsTo 0 (2 ^ 16 - 1) (truncQ (rval x)) (Ratio.to_u16 x) ∧
    ConvertsTo 0 (2 ^ 32 - 1) (truncQ (rval x)) (Ratio.to_u32 x) ∧
    ConvertsTo 0 (2 ^ 64 - 1) (truncQ (rval x)) (Ratio.to_u64 x) ∧
    ConvertsTo 0 (2 ^ 64 - 1) (truncQ (rval x)) (Ratio.to_usize x) ∧
    ConvertsTo 0 (2 ^ 128 - 1) (truncQ (rval x)) (Ratio.to_u128 x) ∧
    ConvertsTo (-2 ^ 7) (2 ^ 7 - 1) (truncQ (rval x)) (Ratio.to_i8 x) ∧
    ConvertsTo (-2 ^ 15) (2 ^ 15 - 1) (truncQ (rval x)) (Ratio.to_i16 x) ∧
    ConvertsTo (-2 ^ 31) (2 ^ 31 - 1) (truncQ (rval x)) (Ratio.to_i32 x) ∧
    ConvertsTo (-2 ^ 63) (2 ^ 63 - 1) (truncQ (rval x)) (Ratio.to_i64 x) ∧
    ConvertsTo (-2 ^ 63) (2 ^ 63 - 1) (truncQ (rval x)) (Ratio.to_isize x) ∧
    ConvertsTo (-2 ^ 127 + 1) (2 ^ 127 - 1) (truncQ (rval x)) (Ratio.to_i128 x) := by
  refine ⟨toInt_conv hx fun a ha => (C18_bi_into ha).2.2.2.1,
    toInt_conv hx fun a ha => (C18_bi_into ha).2.2.2.2.1,
    toInt_conv hx fun a ha => (C18_bi_into ha).2.2.2.2.2.1,
    toInt_conv hx fun a ha => (C18_bi_into ha).2.2.2.2.2.2.1,
    toInt_conv hx fun a ha => (C18_bi_into ha).2.2.2.2.2.2.2.1,
    toInt_conv hx fun a ha => (C18_bi_into ha).2.2.2.2.2.2.2.2,
    toInt_conv hx fun a ha => (C18_bi_into ha).1,
    toInt_conv hx fun a ha => (C18_bi_into ha).2.1,
    toInt_conv hx fun a ha => ?_, toInt_conv hx fun a ha => ?_,
    toInt_conv hx fun a ha => (C18_bi_into ha).2.2.1, toInt_conv hx fun a ha => ?_⟩
  · rw [ha.eq_ofInt, BigI.to_i32_c, ival_ofInt]
    norm_num
    exact ⟨fun h => by rw [if_pos (by omega)], fun h => ⟨_, by rw [if_neg (by omega)]⟩⟩
  · rw [ha.eq_ofInt, BigI.to_i64_c, ival_ofInt]
    norm_num
    exact ⟨fun h => by rw [if_pos (by omega)], fun h => ⟨_, by rw [if_neg (by omega)]⟩⟩
  · rw [ha.eq_ofInt, BigI.to_i128_c, ival_ofInt]
    norm_num
    exact ⟨fun h => by rw [if_pos (by omega)], fun h => ⟨_, by rw [if_neg (by omega)]⟩⟩
example : Ratio.to_i8 ⟨⟨[2], false⟩, ⟨[257], true⟩⟩ = pure (.ok (-128)) := by
  have := (C55_into (x := ⟨⟨[2], false⟩, ⟨[257], true⟩⟩) (by decide)).2.2.2.2.2.2.1.1
    (by decide +kernel)
  rw [this]
  exact congrArg (fun x => pure (Except.ok x)) (by decide +kernel)

/-- `BigInt::from(Ratio)` truncates towards zero, `UBigInt::try_from` too and fails exactly when the
truncated value is negative. -/
theorem C55_big {x : Ratio} (hx : RValid x) :
    ComputesI (BigI.from_ratio x) (truncQ (rval x)) ∧
    (0 ≤ truncQ (rval x) → ∃ b, Ratio.to_ubigint x = pure (.ok b) ∧ Valid b ∧ val b = truncQ (rval x)) ∧
    (truncQ (rval x) < 0 → ∃ e, Ratio.to_ubigint x = pure (.error e)) := by
  have e : Ratio.truncate_bi x = pure (ofInt (truncQ (rval x))) := by
    conv_lhs => rw [hx.eq_ofRat]
    rw [Ratio.truncate_bi_c, qtrunc_eq]
  have key := C18_ubi_bi (a := [0]) (x := ofInt (truncQ (rval x))) (by decide) (ivalid_ofInt _)
  rw [ival_ofInt] at key
  refine ⟨computesI_of_eq e, fun h => ?_, fun h => ?_⟩
  · obtain ⟨b, h1, h2⟩ := key.2.1 h
    exact ⟨b, by rw [Ratio.to_ubigint, e, pure_bind]; exact congrArg pure h1, h2⟩
  · obtain ⟨b, h1⟩ := key.2.2.1 h
    exact ⟨b, by rw [Ratio.to_ubigint, e, pure_bind]; exact congrArg pure h1⟩
example : ∃ e, Ratio.to_ubigint ⟨⟨[2], false⟩, ⟨[257], true⟩⟩ = pure (.error e) :=
  (C55_big (x := ⟨⟨[2], false⟩, ⟨[257], true⟩⟩) (by decide)).2.2 (by decide +kernel)

/-- Integers into `Ratio`: exact for every machine integer, except that the minima of `i32`, `i64`,
`isize`, `i128` panic (`C55_from_min_counterexample`). -/
theorem C55_from {n : Int} {k : Nat} (b : Bool) :
    (-2 ^ 7 ≤ n → n < 2 ^ 7 → ComputesR (Ratio.from_i8 n) n) ∧
    (-2 ^ 15 ≤ n → n < 2 ^ 15 → ComputesR (Ratio.from_i16 n) n) ∧
    (-2 ^ 31 < n → n < 2 ^ 31 → ComputesR (Ratio.from_i32 n) n) ∧
    (-2 ^ 63 < n → n < 2 ^ 63 → ComputesR (Ratio.from_i64 n) n) ∧
    (-2 ^ 63 < n → n < 2 ^ 63 → ComputesR (Ratio.from_isize n) n) ∧
    (-2 ^ 127 < n → n < 2 ^ 127 → ComputesR (Ratio.from_i128 n) n) ∧
    (k < 2 ^ 8 → ComputesR (Ratio.from_u8 k) k) ∧
    (k < 2 ^ 16 → ComputesR (Ratio.from_u16 k) k) ∧
    (k < 2 ^ 32 → ComputesR (Ratio.from_u32 k) k) ∧
    (k < 2 ^ 64 → RValid (Ratio.from_u64 k) ∧ rval (Ratio.from_u64 k) = k) ∧
    (k < 2 ^ 128 → RValid (Ratio.from_u128 k) ∧ rval (Ratio.from_u128 k) = k) ∧
    (k < 2 ^ 64 → RValid (Ratio.from_usize k) ∧ rval (Ratio.from_usize k) = k) ∧
    RValid (Ratio.from_bool b) ∧ rval (Ratio.from_bool b) = b.toNat := by
  have key : ∀ k : Nat, BigI.from_ubi (ofNat k) false = ofInt k := fun k =>
    BigI.from_ubi_c (by rw [Int.natAbs_natCast]) (fun _ => by simp)
  have raw : ∀ z : Int, Ratio.from_denom_and_numer_raw BigI.one (ofInt z) = ofRat z :=
    fun z => Ratio.from_bi_c z
  have h32 : ∀ z : Int, -2147483648 < z → z < 2147483648 → ComputesR (Ratio.from_i32 z) z :=
    fun z h1 h2 => computesR_of_eq (Ratio.from_i32_c ⟨by omega, by omega⟩ (by omega))
  have h64 : ∀ z : Int, -9223372036854775808 < z → z < 9223372036854775808 →
      ComputesR (Ratio.from_i64 z) z := fun z h1 h2 => computesR_of_eq (by
    rw [Ratio.from_i64, BigI.from_i64_c h1 (by omega), pure_bind, raw])
  refine ⟨fun h1 h2 => ?_, fun h1 h2 => ?_, fun h1 h2 => ?_, fun h1 h2 => ?_, fun h1 h2 => ?_,
    fun h1 h2 => ?_, fun h => ?_, fun h => ?_, fun h => ?_, fun h => ?_, fun h => ?_, fun h => ?_,
    by cases b <;> decide, by cases b <;> decide +kernel⟩
  · norm_num at h1 h2; exact h32 _ (by omega) (by omega)
  · norm_num at h1 h2; exact h32 _ (by omega) (by omega)
  · norm_num at h1 h2; exact h32 _ (by omega) (by omega)
  · norm_num at h1 h2; exact h64 _ (by omega) (by omega)
  · norm_num at h1 h2; exact h64 _ (by omega) (by omega)
  · norm_num at h1 h2
    exact computesR_of_eq (by rw [Ratio.from_i128, BigI.from_i128_c h1 (by omega), pure_bind, raw])
  · norm_num at h; have := h32 k (by omega) (by omega); rwa [Int.cast_natCast] at this
  · norm_num at h; have := h32 k (by omega) (by omega); rwa [Int.cast_natCast] at this
  · norm_num at h; have := h64 k (by omega) (by omega); rwa [Int.cast_natCast] at this
  · rw [Ratio.from_u64, UBig.from_u64_eq (by omega), key, Ratio.from_bi_c, Int.cast_natCast]
    exact ⟨rvalid_ofRat _, rval_ofRat _⟩
  · rw [Ratio.from_u128, UBig.from_u128_eq (by omega), key, Ratio.from_bi_c, Int.cast_natCast]
    exact ⟨rvalid_ofRat _, rval_ofRat _⟩
  · rw [Ratio.from_usize, UBig.from_u64_eq (by omega), key, Ratio.from_bi_c, Int.cast_natCast]
    exact ⟨rvalid_ofRat _, rval_ofRat _⟩
example : ComputesR (Ratio.from_i64 (-2 ^ 62)) (-2 ^ 62) := by
  have := (C55_from (n := -2 ^ 62) (k := 0) true).2.2.2.1 (by norm_num) (by norm_num)
  push_cast at this
  exact this

/-- The minimum of each signed type panics. -/
theorem C55_from_min_counterexample :
    Panics (Ratio.from_i32 (-2 ^ 31)) ∧ Panics (Ratio.from_i64 (-2 ^ 63)) ∧
    Panics (Ratio.from_isize (-2 ^ 63)) ∧ Panics (Ratio.from_i128 (-2 ^ 127)) :=
  ⟨⟨.overflow, rfl⟩, ⟨.overflow, rfl⟩, ⟨.overflow, rfl⟩, ⟨.overflow, rfl⟩⟩

/-- `UBigInt` and `BigInt` into `Ratio`. -/
theorem C55_from_big {a : UBig} {x : BigI} (ha : Valid a) (hx : IValid x) :
    (RValid (Ratio.from_ubi a) ∧ rval (Ratio.from_ubi a) = val a) ∧
    (RValid (Ratio.from_bi x) ∧ rval (Ratio.from_bi x) = ival x) := by
  constructor
  · have h := BigI.from_ubi_c (k := val a) (b := false) (z := val a) (by rw [Int.natAbs_natCast])
      (fun _ => by simp)
    have e : Ratio.from_ubi a = ofRat (val a : ℤ) := by
      rw [← Ratio.from_bi_c, ← h, ← ha.eq_ofNat]; rfl
    rw [e]
    exact ⟨rvalid_ofRat _, by rw [rval_ofRat, Int.cast_natCast]⟩
  · conv_lhs => rw [hx.eq_ofInt]
    rw [Ratio.from_bi_c]
    refine ⟨rvalid_ofRat _, ?_⟩
    conv_lhs => rw [hx.eq_ofInt]
    rw [Ratio.from_bi_c, rval_ofRat]
example : rval (Ratio.from_ubi [0, 1]) = (val [0, 1] : ℚ) :=
  (C55_from_big (a := [0, 1]) (x := ⟨[1], false⟩) (by decide) (by decide)).1.2

/-- The pair conversions are inverse to each other: a pair `(denominator, numerator)` becomes the
quotient in lowest terms, and a `Ratio` becomes its pair. -/
theorem C55_pair {d n : BigI} (hd : IValid d) (hn : IValid n) (h0 : ival d ≠ 0) :
    ComputesR (Ratio.from_pair (d, n)) (ival n / ival d) ∧
    (∀ x, RValid x → Ratio.from_pair (Ratio.to_pair x) = pure x) := by
  constructor
  · conv => lhs; rw [hd.eq_ofInt, hn.eq_ofInt]
    exact computesR_of_eq (Ratio.from_dn_c h0 rfl)
  · intro x hx
    rw [Ratio.to_pair, Ratio.from_pair]
    conv_lhs => rw [hx.denom.eq_ofInt, hx.numer.eq_ofInt]
    rw [Ratio.from_dn_c (q := rval x) hx.pos.ne' rfl, ← hx.eq_ofRat]
example : ComputesR (Ratio.from_pair (⟨[4], true⟩, ⟨[6], false⟩)) (-3 / 2) := by
  have h := (C55_pair (d := ⟨[4], true⟩) (n := ⟨[6], false⟩) (by decide) (by decide) (by decide)).1
  have e : ((ival ⟨[6], false⟩ : ℤ) : ℚ) / (ival ⟨[4], true⟩ : ℤ) = -3 / 2 := by decide +kernel
  rwa [e] at h

/-! ## C56: `Complex` -/

/-- The call returns a complex number with well-formed parts of the given values. -/
def ComputesC (m : M Complex) (re im : ℚ) : Prop :=
  ∃ c, m = pure c ∧ RValid c.real ∧ RValid c.imaginary ∧ rval c.real = re ∧ rval c.imaginary = im

/-- Addition of complex numbers and of an integer is exact. -/
theorem C56_add {a b : Complex} (h1 : RValid a.real) (h2 : RValid a.imaginary) (h3 : RValid b.real)
    (h4 : RValid b.imaginary) :
    ComputesC (Complex.add a b) (rval a.real + rval b.real) (rval a.imaginary + rval b.imaginary) ∧
    Complex.add_mut a b = Complex.add a b := by
  obtain ⟨ar, ai⟩ := a
  obtain ⟨br, bi⟩ := b
  simp only [Complex.real, Complex.imaginary] at h1 h2 h3 h4 ⊢
  rw [Complex.add, Complex.add_mut]
  simp only []
  rw [h1.eq_ofRat, h2.eq_ofRat, h3.eq_ofRat, h4.eq_ofRat]
  simp only [rval_ofRat, Ratio.add_c, Ratio.add_mut_c, pure_bind, and_true]
  exact ⟨_, rfl, rvalid_ofRat _, rvalid_ofRat _, rval_ofRat _, rval_ofRat _⟩
example : ComputesC (Complex.add ⟨Ratio.one, Ratio.zero⟩ ⟨Ratio.one, Ratio.one⟩) 2 1 := by
  have := (C56_add (a := ⟨Ratio.one, Ratio.zero⟩) (b := ⟨Ratio.one, Ratio.one⟩) (by decide) (by decide)
    (by decide) (by decide)).1
  have e1 : rval (Complex.real ⟨Ratio.one, Ratio.zero⟩) + rval (Complex.real ⟨Ratio.one, Ratio.one⟩) = 2 := by
    decide +kernel
  have e2 : rval (Complex.imaginary ⟨Ratio.one, Ratio.zero⟩)
    + rval (Complex.imaginary ⟨Ratio.one, Ratio.one⟩) = 1 := by decide +kernel
  rwa [e1, e2] at this

theorem C56_add_i32_partial {a : Complex} {o : Int} (h1 : RValid a.real) (h2 : RValid a.imaginary)
    (ho : IsI32 o) (h' : o ≠ -2 ^ 31) :
    ComputesC (Complex.add_i32 a o) (rval a.real + o) (rval a.imaginary) ∧
    Complex.add_i32_mut a o = Complex.add_i32 a o := by
  norm_num at h'
  obtain ⟨ar, ai⟩ := a
  simp only [Complex.real, Complex.imaginary] at h1 h2 ⊢
  rw [Complex.add_i32, Complex.add_i32_mut]
  simp only []
  rw [h1.eq_ofRat, h2.eq_ofRat]
  simp only [rval_ofRat, Ratio.add_i32_c _ ho h', Ratio.add_i32_mut_c _ ho h', pure_bind, and_true]
  exact ⟨_, rfl, rvalid_ofRat _, rvalid_ofRat _, rval_ofRat _, rval_ofRat _⟩
example : ComputesC (Complex.add_i32 ⟨Ratio.one, Ratio.one⟩ (-3))
    (rval (Complex.real ⟨Ratio.one, Ratio.one⟩) + ((-3 : Int) : ℚ))
    (rval (Complex.imaginary ⟨Ratio.one, Ratio.one⟩)) :=
  (C56_add_i32_partial (by decide) (by decide) (by unfold IsI32; norm_num) (by norm_num)).1

/-- The `i32` that `add_i32` cannot add. -/
theorem C56_add_i32_counterexample (a : Complex) : Panics (Complex.add_i32 a (-2 ^ 31)) ∧
    Panics (Complex.add_i32_mut a (-2 ^ 31)) :=
  ⟨⟨.overflow, rfl⟩, ⟨.overflow, rfl⟩⟩

/-- The parts of a complex number are the ones it was made from. -/
theorem C56_parts (re im : Ratio) : (Complex.from_real_and_imag re im).real = re ∧
    (Complex.from_real_and_imag re im).imaginary = im := ⟨rfl, rfl⟩

/-! ## The remaining `BigInt` wrappers (C07, C08, C09, C48) -/

theorem C07_pow2_bi (e : Nat) :
    ComputesI (BigI.pow2 e) (2 ^ e) ∧ ComputesI (BigI.exp2 e) (2 ^ e) :=
  ⟨computesI_of_eq (BigI.pow2_c e), computesI_of_eq (BigI.exp2_c e)⟩
example : ComputesI (BigI.exp2 40) (2 ^ 40) := (C07_pow2_bi 40).2

/-- `slice_right(n)` keeps the lowest `n` limbs with the sign. -/
theorem C08_slice_right_bi {a : BigI} (ha : IValid a) {n : Nat} (hn : n ≤ a.mag.length) :
    ComputesI (BigI.slice_right a n) ((ival a).tmod (2 ^ (32 * n))) ∧
    BigI.slice_right_mut a n = BigI.slice_right a n := by
  have e : ((B32 ^ n : Nat) : Int) = 2 ^ (32 * n) := by
    rw [pow_mul]; push_cast; norm_num
  have h1 := BigI.slice_right_c (ival a) (n := n) (by rw [← ha.eq_ofInt]; exact hn)
  rw [← ha.eq_ofInt, e] at h1
  refine ⟨computesI_of_eq h1, ?_⟩
  have hm : UBig.slice_right_mut a.mag n = UBig.slice_right a.mag n := by
    rw [UBig.slice_right_mut_eq ha.mag hn, UBig.slice_right_eq ha.mag hn]
  rw [BigI.slice_right_mut, BigI.slice_right, hm]
  refine congrArg (fun f => UBig.slice_right a.mag n >>= f) (funext fun m => ?_)
  rw [BigI.from_ubi]
  cases UBig.is_zero m <;> cases a.neg <;> rfl
example : ComputesI (BigI.slice_right ⟨[5, 7], true⟩ 1) ((ival ⟨[5, 7], true⟩).tmod (2 ^ (32 * 1))) :=
  (C08_slice_right_bi (by decide) (by decide)).1

/-- `log2` of a `BigInt` is the one of its absolute value. -/
theorem C09_log2_bi {a : BigI} (ha : IValid a) (h0 : ival a ≠ 0) (hl : a.mag.length ≤ 2 ^ 58) :
    ∃ r : Nat, ComputesI (BigI.log2 a) r ∧ 2 ^ r ≤ (ival a).natAbs ∧ (ival a).natAbs < 2 ^ (r + 1) := by
  have hv : val a.mag = (ival a).natAbs := by
    rw [ival]; split_ifs <;> omega
  refine ⟨Nat.log2 (val a.mag), ?_, ?_, ?_⟩
  · refine computesI_of_eq ?_
    rw [BigI.log2, UBig.log2_eq ha.mag hl, pure_bind,
      BigI.from_ubi_c (z := (Nat.log2 (val a.mag) : Int)) (by rw [Int.natAbs_natCast]) (fun _ => by simp)]
  · rw [← hv]; exact Nat.log2_self_le (by omega)
  · rw [← hv]; exact Nat.lt_log2_self
example : ∃ r : Nat, ComputesI (BigI.log2 ⟨[0, 5], true⟩) r ∧ 2 ^ r ≤ (ival ⟨[0, 5], true⟩).natAbs ∧
    (ival ⟨[0, 5], true⟩).natAbs < 2 ^ (r + 1) := C09_log2_bi (by decide) (by decide) (by decide)

/-- `to_scientific_notation` of a `BigInt`: the sign, then the leading digits and the exponent of the
absolute value. -/
theorem C48_to_scientific_notation_bi {a : BigI} (ha : IValid a) (k : Nat) (hk : 1 ≤ k)
    (hn : ival a ≠ 0) (h : k ≤ 11 ∨ (ival a).natAbs < 2 ^ 64) :
    BigI.to_scientific_notation a k =
      pure ((if ival a < 0 then "-".toList else []) ++ sciSpec (ival a).natAbs k) := by
  have hv : val a.mag = (ival a).natAbs := by
    rw [ival]; split_ifs <;> omega
  have hs : a.neg = decide (ival a < 0) := by
    conv_lhs => rw [ha.eq_ofInt]
    rw [BigI.neg_ofInt]
  rw [BigI.to_scientific_notation, C48_to_scientific_notation ha.mag k hk (by omega) (by rw [hv]; exact h),
    pure_bind, BigI.withSign, BigI.is_neg, hs, hv]
  by_cases h' : ival a < 0 <;> simp [h']
example : BigI.to_scientific_notation ⟨[0, 0, 0, 1], true⟩ 5 = pure "-7.9228e28".toList := by
  rw [C48_to_scientific_notation_bi (by decide) 5 (by decide) (by decide) (by decide)]
  have : Nat.log 10 (ival ⟨[0, 0, 0, 1], true⟩).natAbs = 28 :=
    (Nat.log_eq_iff (.inl (by decide))).2 ⟨by decide, by decide⟩
  unfold sciSpec
  rw [this]
  exact congrArg pure (by decide)

/-! ## Matrices and polynomials from other element types (C36, C38), minors (C34) -/

/-- The minor of row `i` and column `j` is the determinant without them (matrices of size ≥ 2). -/
theorem C34_minor {n : Nat} (hn : 1 ≤ n) {A : Mat} {B : Matrix (Fin (n + 1)) (Fin (n + 1)) ℚ}
    (h : IsMat A B) (i j : Fin (n + 1)) :
    ComputesR (Mat.minor A i j) (B.submatrix i.succAbove j.succAbove).det ∧
    ComputesR (Mat.cofactor A i j) ((-1) ^ (i + j : Nat) *
      (B.submatrix i.succAbove j.succAbove).det) := by
  obtain ⟨e1, e2⟩ := Mat.isMat_eq h
  rw [e1, e2]
  refine ⟨computesR_of_eq ?_, computesR_of_eq (Mat.cofactor_c hn i j)⟩
  rw [Mat.minor, Mat.subMat_c i.2 j.2, pure_bind, Nat.add_sub_cancel, Mat.determinant_c n hn, pure_bind,
    unwrapR_ok, Mat.mat_skip]
private def m2 : Mat := ⟨[[Ratio.one, Ratio.zero], [Ratio.one, Ratio.one]], 2, 2⟩
example : ComputesR (Mat.minor m2 0 1) ((!![1, 0; 1, 1] : Matrix (Fin 2) (Fin 2) ℚ).submatrix
    (Fin.succAbove 0) (Fin.succAbove 1)).det :=
  (C34_minor (by decide) (B := !![1, 0; 1, 1]) ⟨by decide, rfl, rfl, fun i j => by
    fin_cases i <;> fin_cases j <;> decide +kernel⟩ 0 1).1

/-- `from_vec_generic` converts each entry, then behaves like `from_vec`. -/
theorem C36_from_vec_generic {α : Type} {into : α → M Ratio} {v : α → ℚ} {data : List (List α)}
    (h : ∀ row ∈ data, ∀ x ∈ row, ComputesR (into x) (v x)) :
    (∀ c, (∀ row ∈ data, row.length = c) → ∃ A, Mat.from_vec_generic into data = pure (.ok A) ∧ MValid A ∧
      A.rows = data.length ∧ A.data.map (fun row => row.map rval) = data.map (fun row => row.map v)) ∧
    ((¬ ∃ c, ∀ row ∈ data, row.length = c) →
      Mat.from_vec_generic into data = pure (.error .inconsistentRow)) := by
  have e : Mat.from_vec_generic into data =
      pure (Mat.from_vec (data.map fun row => row.map fun x => ofRat (v x))) := by
    rw [Mat.from_vec_generic, mapM_pure' (g := fun row => row.map fun x => ofRat (v x)), pure_bind]
    intro row hr
    refine mapM_pure' fun x hx => ?_
    obtain ⟨r, e, w, hr⟩ := h row hr x hx
    rw [e, ← hr, ← w.eq_ofRat]
  obtain ⟨k1, k2, k3⟩ := C36_from_vec (data := data.map fun row => row.map fun x => ofRat (v x)) (by
    intro row hr x hx
    obtain ⟨y, _, rfl⟩ := List.mem_map.1 hr
    obtain ⟨z, _, rfl⟩ := List.mem_map.1 hx
    exact rvalid_ofRat _)
  constructor
  · intro c hc
    obtain ⟨A, hA⟩ := k2.2 ⟨c, fun row hr => by
      obtain ⟨y, hy, rfl⟩ := List.mem_map.1 hr
      rw [List.length_map]; exact hc _ hy⟩
    obtain ⟨g1, g2⟩ := k1 A hA
    refine ⟨A, by rw [e, hA], g1, by rw [← g1.rows, g2, List.length_map], ?_⟩
    rw [g2, List.map_map]
    refine List.map_congr_left fun row _ => ?_
    rw [Function.comp, List.map_map]
    exact List.map_congr_left fun x _ => rval_ofRat _
  · intro hc
    rw [e, k3]
    rintro ⟨c, h'⟩
    exact hc ⟨c, fun row hr => by
      have := h' _ (List.mem_map_of_mem hr)
      rwa [List.length_map] at this⟩
example : Mat.from_vec_generic (fun n : Nat => pure (ofRat n)) [[1, 2], [3]]
    = pure (.error .inconsistentRow) := by
  refine (C36_from_vec_generic (v := fun n : Nat => (n : ℚ)) fun _ _ x _ => computesR_of_eq rfl).2 ?_
  rintro ⟨c, hc⟩
  have h1 := hc [1, 2] (by simp)
  have h2 := hc [3] (by simp)
  simp at h1 h2
  omega

/-- `from_points_generic` converts each coordinate, then interpolates. -/
theorem C38_from_points_generic {α : Type} {into : α → M Ratio} {v : α → ℚ} {P : List (α × α)}
    (h : ∀ p ∈ P, ComputesR (into p.1) (v p.1) ∧ ComputesR (into p.2) (v p.2)) :
    (P ≠ [] → (P.map fun p => v p.1).Nodup → ∃ f, Poly.from_points_generic into P = pure (.ok f) ∧
      PValid f ∧ PNormal f ∧ (pval f).degree < P.length ∧ ∀ p ∈ P, (pval f).eval (v p.1) = v p.2) ∧
    (P = [] ∨ ¬(P.map fun p => v p.1).Nodup →
      Poly.from_points_generic into P = pure (.error .zeroDeterminant)) := by
  have e : Poly.from_points_generic into P =
      Poly.from_points (P.map fun p => (ofRat (v p.1), ofRat (v p.2))) := by
    rw [Poly.from_points_generic, mapM_pure' (g := fun p => (ofRat (v p.1), ofRat (v p.2))), pure_bind]
    intro p hp
    obtain ⟨⟨r, e, w, hr⟩, ⟨r', e', w', hr'⟩⟩ := h p hp
    rw [e, e', pure_bind, pure_bind, ← hr, ← w.eq_ofRat, ← hr', ← w'.eq_ofRat]
  have hv : ∀ p ∈ P.map fun p => (ofRat (v p.1), ofRat (v p.2)), RValid p.1 ∧ RValid p.2 := by
    intro p hp
    obtain ⟨q, _, rfl⟩ := List.mem_map.1 hp
    exact ⟨rvalid_ofRat _, rvalid_ofRat _⟩
  have hm : ((P.map fun p => (ofRat (v p.1), ofRat (v p.2))).map fun p => rval p.1)
      = P.map fun p => v p.1 := by
    rw [List.map_map]
    exact List.map_congr_left fun x _ => rval_ofRat _
  constructor
  · intro h0 hd
    obtain ⟨f, h1, h2, h3, h4, h5⟩ := C38_from_points hv (by simpa using h0) (by rw [hm]; exact hd)
    refine ⟨f, by rw [e, h1], h2, h3, by rwa [List.length_map] at h4, fun p hp => ?_⟩
    have := h5 _ (List.mem_map_of_mem hp)
    rwa [rval_ofRat, rval_ofRat] at this
  · intro hd
    rw [e]
    exact C38_from_points_duplicate hv (by rw [hm]; simpa using hd)
example : Poly.from_points_generic (fun n : Nat => pure (ofRat n)) [(1, 2), (3, 4), (1, 7)]
    = pure (.error .zeroDeterminant) :=
  (C38_from_points_generic (v := fun n : Nat => (n : ℚ))
    fun _ _ => ⟨computesR_of_eq rfl, computesR_of_eq rfl⟩).2 (.inr (by decide +kernel))

end Props
end Hmath
