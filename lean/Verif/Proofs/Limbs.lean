import Verif.Spec
import Verif.Model.UBigInt
import Mathlib.Data.Nat.Digits.Lemmas
import Mathlib.Tactic.Ring
import Mathlib.Tactic.Linarith

/-! # Limb vectors and natural numbers -/

namespace Hmath

@[simp] theorem val_nil : val [] = 0 := rfl
@[simp] theorem val_cons (d : Nat) (l : List Nat) : val (d :: l) = d + B32 * val l := by
  simp [val, Nat.ofDigits_cons]
theorem val_singleton (d : Nat) : val [d] = d := by simp

theorem val_append (a b : List Nat) : val (a ++ b) = val a + B32 ^ a.length * val b := by
  simp [val, Nat.ofDigits_append]

theorem val_replicate_zero (n : Nat) : val (List.replicate n 0) = 0 := by
  induction n with
  | zero => rfl
  | succ n ih => simp [List.replicate_succ, ih]

/-- all limbs are `u32` values -/
def Limbs (a : List Nat) : Prop := ∀ d ∈ a, d < B32

theorem limbs_nil : Limbs [] := by simp [Limbs]
@[simp] theorem limbs_cons {d : Nat} {l : List Nat} : Limbs (d :: l) ↔ d < B32 ∧ Limbs l := by
  simp [Limbs]
theorem limbs_append {a b : List Nat} : Limbs (a ++ b) ↔ Limbs a ∧ Limbs b := by
  simp only [Limbs, List.mem_append]
  constructor
  · intro h; exact ⟨fun d hd => h d (Or.inl hd), fun d hd => h d (Or.inr hd)⟩
  · rintro ⟨h1, h2⟩ d (hd | hd)
    · exact h1 d hd
    · exact h2 d hd
theorem limbs_replicate_zero (n : Nat) : Limbs (List.replicate n 0) := by
  intro d hd; rw [List.mem_replicate] at hd; omega

theorem val_lt {a : List Nat} (h : Limbs a) : val a < B32 ^ a.length := by
  induction a with
  | nil => simp
  | cons d l ih =>
    rw [limbs_cons] at h
    have := ih h.2
    rw [val_cons, List.length_cons, pow_succ]
    have h1 : val l + 1 ≤ B32 ^ l.length := this
    nlinarith [h.1]

/-- canonical limb vector of a natural number -/
def ofNat (n : Nat) : List Nat :=
  if n < B32 then [n] else n % B32 :: ofNat (n / B32)
termination_by n

theorem ofNat_lt {n : Nat} (h : n < B32) : ofNat n = [n] := by
  rw [ofNat, if_pos h]
theorem ofNat_ge {n : Nat} (h : B32 ≤ n) : ofNat n = n % B32 :: ofNat (n / B32) := by
  rw [ofNat, if_neg (by omega)]

theorem ofNat_ne_nil (n : Nat) : ofNat n ≠ [] := by
  unfold ofNat; split <;> simp

@[simp] theorem val_ofNat (n : Nat) : val (ofNat n) = n := by
  induction n using Nat.strong_induction_on with
  | _ n ih =>
    by_cases h : n < B32
    · rw [ofNat_lt h, val_singleton]
    · rw [ofNat_ge (by omega), val_cons, ih _ (by omega)]
      omega

theorem limbs_ofNat (n : Nat) : Limbs (ofNat n) := by
  induction n using Nat.strong_induction_on with
  | _ n ih =>
    by_cases h : n < B32
    · rw [ofNat_lt h, limbs_cons]; exact ⟨h, limbs_nil⟩
    · rw [ofNat_ge (by omega), limbs_cons]
      exact ⟨by omega, ih _ (by omega)⟩

theorem top_ofNat (n : Nat) (h0 : 0 < n) : (ofNat n).getLast? ≠ some 0 := by
  induction n using Nat.strong_induction_on with
  | _ n ih =>
    by_cases h : n < B32
    · rw [ofNat_lt h]; simp; omega
    · rw [ofNat_ge (by omega), List.getLast?_cons]
      have := ih (n / B32) (by omega) (by omega)
      cases hl : (ofNat (n / B32)).getLast? with
      | none => exact absurd (List.getLast?_eq_none_iff.mp hl) (ofNat_ne_nil _)
      | some x => rw [hl] at this; simpa using this

theorem valid_ofNat (n : Nat) : Valid (ofNat n) := by
  refine ⟨ofNat_ne_nil n, limbs_ofNat n, fun h => ?_⟩
  apply top_ofNat
  rcases Nat.eq_zero_or_pos n with h0 | h0
  · subst h0; rw [ofNat_lt (by omega)] at h; simp at h
  · exact h0

theorem Valid.limbs' {a : List Nat} (h : Valid a) : Limbs a := h.limbs

theorem val_pos_of_top {a : List Nat} (hne : a ≠ []) (h : a.getLast? ≠ some 0) : 0 < val a := by
  induction a with
  | nil => exact absurd rfl hne
  | cons d l ih =>
    rw [val_cons]
    by_cases hl : l = []
    · subst hl; simp at h; omega
    · have : l.getLast? ≠ some 0 := by
        rw [List.getLast?_cons] at h
        cases hx : l.getLast? with
        | none => simp
        | some x => rw [hx] at h; simpa using h
      have := ih hl this
      omega

/-- Every valid limb vector is the canonical one of its value. -/
theorem Valid.eq_ofNat {a : List Nat} (h : Valid a) : a = ofNat (val a) := by
  obtain ⟨hne, hl, ht⟩ := h
  induction a with
  | nil => exact absurd rfl hne
  | cons d l ih =>
    have hd : d < B32 := hl d (by simp)
    by_cases hl0 : l = []
    · subst hl0; rw [val_singleton, ofNat_lt hd]
    · have hlen : (d :: l).length > 1 := by
        cases l with
        | nil => exact absurd rfl hl0
        | cons => simp
      have ht' := ht hlen
      have htop : l.getLast? ≠ some 0 := by
        rw [List.getLast?_cons] at ht'
        cases hx : l.getLast? with
        | none => simp
        | some x => rw [hx] at ht'; simpa using ht'
      have hpos := val_pos_of_top hl0 htop
      have ih' := ih hl0 (fun x hx => hl x (by simp [hx])) (fun _ => htop)
      rw [val_cons, ofNat_ge (by omega)]
      rw [show (d + B32 * val l) % B32 = d by omega, show (d + B32 * val l) / B32 = val l by omega]
      rw [← ih']

theorem valid_iff {a : List Nat} : Valid a ↔ ∃ n, a = ofNat n :=
  ⟨fun h => ⟨_, h.eq_ofNat⟩, by rintro ⟨n, rfl⟩; exact valid_ofNat n⟩

theorem Valid.ext {a b : List Nat} (ha : Valid a) (hb : Valid b) (h : val a = val b) : a = b := by
  rw [ha.eq_ofNat, hb.eq_ofNat, h]

theorem ofNat_inj {m n : Nat} : ofNat m = ofNat n ↔ m = n :=
  ⟨fun h => by rw [← val_ofNat m, h, val_ofNat], fun h => by rw [h]⟩

theorem ofNat_zero : ofNat 0 = [0] := ofNat_lt (by omega)
theorem ofNat_one : ofNat 1 = [1] := ofNat_lt (by omega)

/-! ### lengths -/

theorem length_ofNat_pos (n : Nat) : 0 < (ofNat n).length :=
  List.length_pos_iff.mpr (ofNat_ne_nil n)

theorem lt_pow_length (n : Nat) : n < B32 ^ (ofNat n).length := by
  have := val_lt (limbs_ofNat n); rwa [val_ofNat] at this

theorem pow_length_le {n : Nat} (h : 0 < n) : B32 ^ ((ofNat n).length - 1) ≤ n := by
  induction n using Nat.strong_induction_on with
  | _ n ih =>
    by_cases hn : n < B32
    · rw [ofNat_lt hn]; simp; omega
    · rw [ofNat_ge (by omega)]
      have := ih (n / B32) (by omega) (by omega)
      have hp := length_ofNat_pos (n / B32)
      rw [List.length_cons, Nat.add_sub_cancel]
      obtain ⟨k, hk⟩ : ∃ k, (ofNat (n / B32)).length = k + 1 := ⟨_, (Nat.succ_pred_eq_of_pos hp).symm⟩
      rw [hk] at this ⊢
      rw [Nat.add_sub_cancel] at this
      rw [pow_succ]
      omega

/-- length ≤ k iff value < B^k (k ≥ 1) -/
theorem length_ofNat_le_iff {n k : Nat} (hk : 0 < k) : (ofNat n).length ≤ k ↔ n < B32 ^ k := by
  constructor
  · intro h
    exact lt_of_lt_of_le (lt_pow_length n) (Nat.pow_le_pow_right (by omega) h)
  · intro h
    by_contra hc
    rcases Nat.eq_zero_or_pos n with h0 | h0
    · subst h0; rw [ofNat_zero] at hc; simp at hc; omega
    · have h1 := pow_length_le h0
      have : B32 ^ k ≤ B32 ^ ((ofNat n).length - 1) := Nat.pow_le_pow_right (by omega) (by omega)
      omega

theorem length_ofNat_gt_iff {n k : Nat} (hk : 0 < k) : k < (ofNat n).length ↔ B32 ^ k ≤ n := by
  rw [← not_le, length_ofNat_le_iff hk, not_lt]

theorem length_ofNat_mono {m n : Nat} (h : m ≤ n) : (ofNat m).length ≤ (ofNat n).length := by
  rw [length_ofNat_le_iff (length_ofNat_pos n)]
  exact lt_of_le_of_lt h (lt_pow_length n)

theorem lt_of_length_lt {m n : Nat} (h : (ofNat m).length < (ofNat n).length) : m < n := by
  by_contra hc
  have := length_ofNat_mono (not_lt.mp hc)
  omega

/-! ### `remove_suffix_0` -/

theorem remove_suffix_0_snoc_zero {s : List Nat} (hs : s ≠ []) :
    remove_suffix_0 (s ++ [0]) = remove_suffix_0 s := by
  unfold remove_suffix_0
  have : s.reverse ≠ [] := by simpa using hs
  cases hr : s.reverse with
  | nil => exact absurd hr this
  | cons x t => simp [hr, dropZerosRev]

theorem remove_suffix_0_snoc_ne {s : List Nat} {x : Nat} (hx : x ≠ 0) :
    remove_suffix_0 (s ++ [x]) = s ++ [x] := by
  unfold remove_suffix_0
  rw [List.reverse_append]
  cases hr : s.reverse with
  | nil =>
    have : s = [] := by simpa using hr
    subst this; simp [dropZerosRev]
  | cons y t =>
    simp only [List.reverse_singleton, List.singleton_append, dropZerosRev, if_neg hx]
    rw [← hr]; simp

theorem remove_suffix_0_eq {r : List Nat} (hne : r ≠ []) (hl : Limbs r) :
    remove_suffix_0 r = ofNat (val r) := by
  induction r using List.reverseRecOn with
  | nil => exact absurd rfl hne
  | append_singleton s x ih =>
    rw [limbs_append] at hl
    by_cases hx : x = 0
    · subst hx
      by_cases hs : s = []
      · subst hs; simp [remove_suffix_0, dropZerosRev, ofNat_zero]
      · rw [remove_suffix_0_snoc_zero hs, ih hs hl.1, val_append]; simp
    · rw [remove_suffix_0_snoc_ne hx]
      apply Valid.eq_ofNat
      refine ⟨by simp, ?_, fun _ => by simpa using hx⟩
      have : Limbs (s ++ [x]) := limbs_append.mpr hl
      exact this

end Hmath
