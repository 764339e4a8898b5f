import Verif.Props.Fp192Quot
import Verif.Props.Fp192Trigo

/-!
# C70: sine, cosine and tangent of large numbers
-/

namespace Hmath
namespace Props

open F192 (mk' mg Nrm Z ZERO ONE PI)

/-- two times pi -/
private def PI2 : F192 := ⟨97115962555772455233232789574583590097, 281474976710531⟩

private instance : DecidableEq (M F192) := inferInstanceAs (DecidableEq (Option (Except Panic F192)))

private theorem pi2_shl : F192.shl PI 1 = pure PI2 := by decide +kernel

/-- whole numbers have no fraction -/
private theorem frac_whole {z : F192} (hz : FValid z) (h1 : 281474976710656 ≤ z.exp) (h2 : z.exp < 2 ^ 63) : F192.frac z = pure ZERO := by
  have ht : z ≠ negTiny := by
    rintro rfl
    exact absurd h1 (by decide)
  obtain ⟨t, t1, t2, t3⟩ := C43_frac_partial hz h2 ht
  rw [t1]
  refine congrArg pure ((F192.fval_eq_zero t2).1 ?_)
  obtain ⟨s, m, e, hm, he, rfl⟩ := F192.exists_mk hz
  rw [F192.mk_exp] at h1
  obtain ⟨k, hk⟩ : ∃ k : Nat, e = 281474976710656 + k := ⟨e - 281474976710656, by omega⟩
  have hu : F192.ulp 281474976710656 = 1 := by rw [F192.ulp]; norm_num
  have hint : fval (mk' s m e) = (((if s then -1 else 1) * (m * 2 ^ k) : ℤ) : ℚ) := by
    rw [F192.fval_mk hm (F192.nz_exp (by omega)), hk, ← F192.mg_shift, F192.mg_eq, hu]
    cases s <;> simp [F192.sgn]
  rw [t3, hint]
  have htr : ∀ n : ℤ, truncQ (n : ℚ) = n := fun n => by
    rw [truncQ]
    split
    · exact Int.floor_intCast _
    · exact Int.ceil_intCast _
  rw [htr, sub_self]

private theorem abs_exp {x : F192} (hx : FValid x) (h0 : 0 < x.exp) : FValid (F192.abs x) ∧ (F192.abs x).exp = x.exp := by
  have ht : x ≠ negTiny := by
    rintro rfl
    exact absurd h0 (by decide)
  refine ⟨(C59_sign_partial hx ht).1, ?_⟩
  obtain ⟨s, m, e, hm, he, rfl⟩ := F192.exists_mk hx
  rfl

private theorem mod2pi_large {x : F192} (hx : FValid x) (rx : LogArg x) (h : 131 ≤ wrapLead x) : F192.mod2pi x = pure ZERO := by
  obtain ⟨a1, a2⟩ := abs_exp hx rx.1
  have w : wrapLead (F192.abs x) = wrapLead x := by unfold wrapLead lead; rw [a2]
  have ra : LogArg (F192.abs x) := by unfold LogArg at *; rwa [a2]
  have rp : DivArg PI2 := by decide
  have wp : wrapLead PI2 = 2 := by decide
  have hu : wrapLead x ≤ 2 ^ 39 - 1 := by
    unfold wrapLead
    have := Int.emod_lt_of_pos (lead x + 2 ^ 39) (show (0 : ℤ) < 2 ^ 40 by norm_num)
    omega
  obtain ⟨z, z1, z2, -⟩ := C62_div_residue a1 (y := PI2) (by decide) ra rp (by
    rw [w, wp, abs_le]
    omega) rfl
  obtain ⟨-, -, l1, l2, -⟩ := C62_div_sign a1 (by decide) ra rp z1
  rw [w, wp] at l1 l2
  unfold lead at l1 l2
  rw [F192.mod2pi, pi2_shl, pure_bind, z1, pure_bind, frac_whole z2 (by omega) (by omega), pure_bind]
  rfl

/-- The sine of every large number is zero, its cosine is one: from `2^131` on the quotient by two pi is taken for a whole number.  (The exponents
are seen modulo `2^40`.) -/
theorem C70_large {x : F192} (hx : FValid x) (rx : LogArg x) (h : 131 ≤ wrapLead x) :
    F192.sin x = pure ZERO ∧ F192.cos x = pure ONE ∧ F192.tan x = pure ZERO := by
  have hm := mod2pi_large hx rx h
  have hp := mod2pi_large (x := ⟨0, 281474976710729⟩) (by decide) (by decide) (by decide)
  have hn := mod2pi_large (x := ⟨170141183460469231731687303715884105728, 281474976710729⟩) (by decide) (by decide) (by decide)
  have hs : F192.sin x = pure ZERO := by
    have e0 : F192.sin ⟨0, 281474976710729⟩ = pure ZERO := (F192.sinE_c _).ret (by decide +kernel)
    have e1 : F192.sin ⟨170141183460469231731687303715884105728, 281474976710729⟩ = pure ZERO := (F192.sinE_c _).ret (by decide +kernel)
    rw [F192.sin, hp, pure_bind, if_neg (by decide), show F192.is_neg ⟨0, 281474976710729⟩ = false by decide] at e0
    rw [F192.sin, hn, pure_bind, if_neg (by decide), show F192.is_neg ⟨170141183460469231731687303715884105728, 281474976710729⟩ = true by decide] at e1
    rw [F192.sin, hm, pure_bind, if_neg (by decide)]
    cases F192.is_neg x
    · exact e0
    · exact e1
  have hc : F192.cos x = pure ONE := by
    have e0 : F192.cos ⟨0, 281474976710729⟩ = pure ONE := (F192.cosE_c _).ret (by decide +kernel)
    rw [F192.cos, hp, pure_bind] at e0
    rw [F192.cos, hm, pure_bind, e0]
  refine ⟨hs, hc, ?_⟩
  rw [F192.tan, hs, pure_bind, hc, pure_bind]
  exact (C62_div_zero _).1

/-- `1.5 * 2^131` -/
example : F192.sin ⟨2 ^ 126, 2 ^ 48 - 127 + 131⟩ = pure ZERO := (C70_large (by decide) (by decide) (by decide)).1

/-- Exponent fields from `2^63` to `2^63 + 2^48 - 1` panic. -/
theorem C70_high_panic {x : F192} (hx : FValid x) (h1 : 2 ^ 63 ≤ x.exp) (h2 : x.exp < 2 ^ 63 + 2 ^ 48) :
    Panics (F192.sin x) ∧ Panics (F192.cos x) ∧ Panics (F192.tan x) := by
  obtain ⟨a1, a2⟩ := abs_exp hx (by omega)
  have hm : Panics (F192.mod2pi x) := by
    obtain ⟨p, hp⟩ := C62_div_log_panic a1 (y := PI2) (by decide) (by rw [a2]; omega) (by decide) (Or.inl (by rw [a2]; exact ⟨h1, h2⟩))
    refine ⟨p, ?_⟩
    rw [F192.mod2pi, pi2_shl, pure_bind, hp]
    rfl
  have hs : Panics (F192.sin x) := F192.panics_bind hm _
  exact ⟨hs, F192.panics_bind hm _, F192.panics_bind hs _⟩

example : Panics (F192.cos ⟨3, 2 ^ 63 + 5⟩) := (C70_high_panic (by decide) (by norm_num) (by norm_num)).2.1

end Props
end Hmath
