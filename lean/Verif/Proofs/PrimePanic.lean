import Verif.Proofs.Prime

/-!
# The exact condition under which `prime_factorial` panics
-/

namespace Hmath
namespace UBig

/-- all prime factors are at least `2^32` -/
def Rough (r : Nat) : Prop := ∀ p, p.Prime → p ∣ r → B32 ≤ p

theorem Rough.coprime {r d : Nat} (hr : Rough r) (h0 : 0 < d) (hd : d < B32) : Nat.Coprime r d := by
  rw [Nat.coprime_iff_gcd_eq_one]
  by_contra hc
  obtain ⟨p, hp, h⟩ := Nat.exists_prime_and_dvd hc
  have h1 := hr p hp (dvd_trans h (Nat.gcd_dvd_left _ _))
  have h2 := Nat.le_of_dvd h0 (dvd_trans h (Nat.gcd_dvd_right _ _))
  omega

theorem pfLoop32_panics {r : Nat} (hr : Rough r) (hb : U32MAX * U32MAX ≤ r) :
    ∀ k d m (res : List Nat), d + 2 * k = U32MAX → 3 ≤ d → 0 < m → r ∣ m → (ofNat m).length ≤ B32 →
      Panics (pfLoop32 (ofNat m) d (res.map ofNat)) := by
  intro k
  induction k with
  | zero =>
    intro d m res hk h3 h0 hrm hlen
    obtain rfl : d = U32MAX := by omega
    have := Nat.le_of_dvd h0 hrm
    rw [pfLoop32, u64Mul, uMul_eq (by omega), pure_bind, from_u64_eq (by omega), geq_c,
      decide_eq_true (le_trans hb this), if_pos rfl]
    obtain ⟨j, m', e, hm', hnd⟩ := pfInner32_spec U32MAX (by omega) (by omega) m h0 hlen res
    rw [e, pure_bind]
    exact ⟨.overflow, rfl⟩
  | succ k ih =>
    intro d m res hk h3 h0 hrm hlen
    have hle := Nat.le_of_dvd h0 hrm
    have hdd : d * d ≤ U32MAX * U32MAX := Nat.mul_le_mul (by omega) (by omega)
    rw [pfLoop32, u64Mul, uMul_eq (by omega), pure_bind, from_u64_eq (by omega), geq_c,
      decide_eq_true (by omega), if_pos rfl]
    obtain ⟨j, m', e, hm', hnd⟩ := pfInner32_spec d (by omega) (by omega) m h0 hlen res
    have hmm : m' ∣ m := ⟨d ^ j, by rw [hm']; ring⟩
    rw [e, pure_bind, u32Add, uAdd_eq (by omega), pure_bind]
    refine ih (d + 2) m' _ (by omega) (by omega) (Nat.pos_of_dvd_of_pos hmm h0) ?_
      (le_trans (length_ofNat_mono (Nat.le_of_dvd h0 hmm)) hlen)
    rw [hm'] at hrm
    exact ((hr.coprime (by omega) (by omega)).pow_right j).dvd_of_dvd_mul_left hrm

theorem prime_factorial_rough_panics {n r : Nat} (hn : 0 < n) (hlen : (ofNat n).length ≤ B32)
    (hr : Rough r) (hb : U32MAX * U32MAX ≤ r) (hrn : r ∣ n) : Panics (prime_factorial (ofNat n)) := by
  obtain ⟨k, m, e, hm, ho⟩ := pfTwos_spec n hn []
  have hmn : m ∣ n := ⟨2 ^ k, by rw [hm]; ring⟩
  rw [List.map_nil] at e
  rw [prime_factorial, e, pure_bind]
  simp only
  obtain ⟨p, h⟩ := pfLoop32_panics hr hb 2147483646 3 m (List.replicate k 2 ++ []) (by norm_num) (by omega)
    (Nat.pos_of_dvd_of_pos hmn hn) (by
      rw [hm] at hrn
      exact ((hr.coprime (by omega) (by omega)).pow_right k).dvd_of_dvd_mul_left hrn)
    (le_trans (length_ofNat_mono (Nat.le_of_dvd hn hmn)) hlen)
  rw [h]
  exact ⟨p, rfl⟩

/-- without a rough divisor of this size the first loop ends -/
theorem pfLoop32_total (N : Nat) (hlenN : (ofNat N).length ≤ B32) (hN : 0 < N)
    (hno : ∀ r, Rough r → r ∣ N → r < U32MAX * U32MAX) :
    ∀ k d m res, U32MAX + 2 ≤ d + k → 3 ≤ d → d ≤ U32MAX → d % 2 = 1 → PF N m d res →
      ∃ x, pfLoop32 (ofNat m) d (res.map ofNat) = pure x := by
  intro k
  induction k with
  | zero => intro d m res hk h3 hd; omega
  | succ k ih =>
    intro d m res hk h3 hd ho hpf
    have hmN : m ∣ N := ⟨res.prod, by rw [← hpf.prod]; ring⟩
    have hlen : (ofNat m).length ≤ B32 :=
      le_trans (length_ofNat_mono (Nat.le_of_dvd hN hmN)) hlenN
    have hm0 : 0 < m := Nat.pos_of_dvd_of_pos hmN hN
    have hdd : d * d < B64 := sq_lt_B64 (by omega)
    rw [pfLoop32, u64Mul, uMul_eq hdd, pure_bind, from_u64_eq hdd, geq_c]
    by_cases hge : d * d ≤ m
    · rw [decide_eq_true hge, if_pos rfl]
      obtain ⟨j, m', e, hm', hnd⟩ := pfInner32_spec d (by omega) (by omega) m hm0 hlen res
      rw [e, pure_bind]
      by_cases hmax : d = U32MAX
      · subst hmax
        refine absurd (hno m (fun p hp hpm => ?_) hmN) (by omega)
        by_contra hc
        by_cases hp' : p = U32MAX
        · rcases hp.eq_one_or_self_of_dvd 3 ⟨1431655765, by omega⟩ with h | h <;> omega
        · exact hpf.nodiv p hp.two_le (by omega) hpm
      · rw [u32Add, uAdd_eq (by omega), pure_bind]
        exact ih (d + 2) m' _ (by omega) (by omega) (by omega) (by omega) (hpf.step h3 ho hm' hnd)
    · rw [decide_eq_false hge]
      exact ⟨_, rfl⟩

theorem prime_factorial_total {n : Nat} (hn : 2 ≤ n) (hlen : (ofNat n).length ≤ B32)
    (hno : ∀ r, Rough r → r ∣ n → r < U32MAX * U32MAX) : ¬Panics (prime_factorial (ofNat n)) := by
  obtain ⟨k, m, e, hm, ho⟩ := pfTwos_spec n (by omega) []
  rw [List.map_nil] at e
  have hpf := pf_start hm ho
  obtain ⟨x, hx⟩ := pfLoop32_total n hlen (by omega) hno (U32MAX + 2) 3 m _ (by omega) (by omega) (by omega)
    (by omega) hpf
  rcases pfLoop32_spec n hlen (by omega) (U32MAX + 2) 3 m _ (by omega) (by omega) (by omega)
    (by omega) hpf with ⟨⟨p, h⟩, hb⟩ | ⟨d', m', res, e2, hpf', hlt, hd'⟩
  · rw [hx] at h; cases h
  · rintro ⟨p, h⟩
    rw [prime_factorial, e, pure_bind] at h
    simp only at h
    rw [e2, pure_bind] at h
    simp only at h
    have hlt2 : m' < U32MAX * U32MAX := lt_of_lt_of_le hlt (Nat.mul_le_mul hd' hd')
    rw [from_u32_eq (by omega), pfLoopBig, mul_c, pure_bind, geq_c, decide_eq_false (by omega)] at h
    simp only [Bool.false_eq_true, if_false] at h
    rw [pure_bind] at h
    simp only at h
    rw [gt_u32_c (by omega), pure_bind] at h
    split at h <;> cases h

end UBig
end Hmath
