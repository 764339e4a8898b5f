import Verif.Model.Fp192Code
import Verif.Proofs.Fp192Sqrt

/-!
# The 13 character code of 192-bit floating point numbers
-/

namespace Hmath
namespace F192

/-! ### characters -/

/-- digits, upper and lower case letters -/
def IsAlnum (c : Nat) : Prop := 48 ≤ c ∧ c ≤ 57 ∨ 65 ≤ c ∧ c ≤ 90 ∨ 97 ≤ c ∧ c ≤ 122

instance (c : Nat) : Decidable (IsAlnum c) := by unfold IsAlnum; infer_instance

theorem codeVal_char {v : Nat} (h : v < 62) : codeVal (codeChar v) = .ok v := by
  revert v; decide

theorem exists_char {c : Nat} (h : IsAlnum c) : ∃ v < 62, c = codeChar v := by
  have h' : c < 123 := by unfold IsAlnum at h; omega
  have : ∀ c < 123, IsAlnum c → ∃ v < 62, c = codeChar v := by decide +kernel
  exact this c h' h

theorem codeVal_err {c : Nat} (h : ¬IsAlnum c) : codeVal c = .error (.invalidChar (Char.ofNat c)) := by
  unfold IsAlnum at h
  unfold codeVal
  split
  · rfl
  split
  · omega
  split
  · rfl
  split
  · omega
  split
  · rfl
  split
  · omega
  · rfl

theorem alnum_char {v : Nat} (h : v < 62) : IsAlnum (codeChar v) := by
  revert v; decide

theorem codeChar_zero {v : Nat} (h : v < 62) : codeChar v = 48 ↔ v = 0 := by
  revert v; decide

theorem codeVals_map : ∀ {vs : List Nat}, (∀ v ∈ vs, v < 62) → codeVals (vs.map codeChar) = .ok vs
  | [], _ => rfl
  | v :: vs, h => by
    rw [List.map_cons, codeVals, codeVal_char (h v (List.mem_cons_self ..)), codeVals_map (fun w hw => h w (List.mem_cons_of_mem _ hw))]

theorem exists_vals : ∀ {s : List Nat}, (∀ c ∈ s, IsAlnum c) → ∃ vs : List Nat, s = vs.map codeChar ∧ ∀ v ∈ vs, v < 62
  | [], _ => ⟨[], rfl, by simp⟩
  | c :: s, h => by
    obtain ⟨v, h1, h2⟩ := exists_char (h c (List.mem_cons_self ..))
    obtain ⟨vs, g1, g2⟩ := exists_vals (s := s) (fun w hw => h w (List.mem_cons_of_mem _ hw))
    exact ⟨v :: vs, by rw [List.map_cons, h2, g1], by simpa using ⟨h1, g2⟩⟩

theorem codeVals_err : ∀ {s : List Nat}, (∃ c ∈ s, ¬IsAlnum c) → ∃ c ∈ s, ¬IsAlnum c ∧ codeVals s = .error (.invalidChar (Char.ofNat c))
  | [], h => by simp at h
  | c :: s, h => by
    by_cases hc : IsAlnum c
    · obtain ⟨v, h1, h2⟩ := exists_char hc
      obtain ⟨c', g1, g2⟩ := h
      rcases List.mem_cons.1 g1 with rfl | g1
      · exact absurd hc g2
      obtain ⟨c'', k1, k2, k3⟩ := codeVals_err ⟨c', g1, g2⟩
      refine ⟨c'', List.mem_cons_of_mem _ k1, k2, ?_⟩
      rw [codeVals, h2, codeVal_char h1, k3]
    · exact ⟨c, List.mem_cons_self .., hc, by rw [codeVals, codeVal_err hc]⟩

theorem codeStrip_pad {s : List Nat} (hs : s ≠ []) (h : s.length = 1 ∨ s.head? ≠ some 48) : ∀ k, codeStrip (List.replicate k 48 ++ s) = s
  | 0 => by
    match s, hs, h with
    | [c], _, _ => rfl
    | c :: c' :: s, _, h =>
      rw [List.replicate_zero, List.nil_append, codeStrip, if_neg]
      rcases h with h | h
      · simp at h
      · simpa using h
  | k + 1 => by
    have := codeStrip_pad hs h k
    have hne : List.replicate k 48 ++ s ≠ [] := by simp [hs]
    obtain ⟨c, t, ht⟩ := List.exists_cons_of_ne_nil hne
    rw [List.replicate_succ, List.cons_append, ht, codeStrip, if_pos rfl, ← ht, this]

/-- dropping leading zeros can be undone by padding -/
theorem pad_strip : ∀ s : List Nat, s ≠ [] → codeStrip s ≠ [] ∧ (codeStrip s).length ≤ s.length ∧
    List.replicate (s.length - (codeStrip s).length) 48 ++ codeStrip s = s
  | [], h => absurd rfl h
  | [c], _ => by simp [codeStrip]
  | c :: c' :: s, _ => by
    obtain ⟨h1, h2, h3⟩ := pad_strip (c' :: s) (by simp)
    rw [codeStrip]
    split
    · rename_i hc
      subst hc
      refine ⟨h1, by simp only [List.length_cons] at *; omega, ?_⟩
      rw [show (48 :: c' :: s).length - (codeStrip (c' :: s)).length = ((c' :: s).length - (codeStrip (c' :: s)).length) + 1 by
        simp only [List.length_cons] at *; omega, List.replicate_succ, List.cons_append, h3]
    · simp

/-! ### exponent and digits -/

theorem digits_inv {v0 v1 v2 v3 v4 v5 v6 v7 v8 v9 v10 v11 v12 : Nat} (h1 : v1 < 62) (h2 : v2 < 62) (h3 : v3 < 62) (h4 : v4 < 62)
    (h5 : v5 < 62) (h6 : v6 < 62) (h7 : v7 < 62) (h8 : v8 < 62) (h9 : v9 < 62) (h10 : v10 < 62) (h11 : v11 < 62) (h12 : v12 < 62) :
    codeDigits (v0 * 124 + v1 * 2 + v2 / 31) (codeSum [v3, v4, v5, v6, v7, v8, v9, v10, v11, v12] 0 / 2 + v2 % 31) =
      [v0, v1, v2, v3, v4, v5, v6, v7, v8, v9, v10, v11, v12].map codeChar ∧
    codeSum [v3, v4, v5, v6, v7, v8, v9, v10, v11, v12] 0 / 2 + v2 % 31 < BASE := by
  obtain ⟨d, hd, hd'⟩ : ∃ d, d = codeSum [v3, v4, v5, v6, v7, v8, v9, v10, v11, v12] 0 / 2 + v2 % 31 ∧
      d = 31 * (v12 + 62 * (v11 + 62 * (v10 + 62 * (v9 + 62 * (v8 + 62 * (v7 + 62 * (v6 + 62 * (v5 + 62 * (v4 + 62 * v3))))))))) + v2 % 31 := by
    refine ⟨_, rfl, ?_⟩
    simp only [codeSum]
    omega
  rw [← hd]
  refine ⟨?_, by unfold BASE; omega⟩
  unfold codeDigits
  rw [show (v0 * 124 + v1 * 2 + v2 / 31) / 124 = v0 by omega, show (v0 * 124 + v1 * 2 + v2 / 31) % 124 / 2 = v1 by omega,
    show (v0 * 124 + v1 * 2 + v2 / 31) % 2 * 31 + d % 31 = v2 by omega,
    show d / 419649682934170112 = v3 by omega,
    show d / 6768543273131776 % 62 = v4 by omega, show d / 109170052792448 % 62 = v5 by omega, show d / 1760807303104 % 62 = v6 by omega,
    show d / 28400117792 % 62 = v7 by omega, show d / 458066416 % 62 = v8 by omega, show d / 7388168 % 62 = v9 by omega,
    show d / 119164 % 62 = v10 by omega, show d / 1922 % 62 = v11 by omega, show d / 31 % 62 = v12 by omega]
  rfl

/-- the exponent that a number stands for -/
def expOf (e : Nat) : Int := ((e + 2) / 4 : Nat) * (((e % 4 / 2 * 2 : Nat) : Int) - 1)

theorem expOf_eq (e : Nat) : expOf e = if e % 4 < 2 then -(((e + 2) / 4 : Nat) : Int) else (((e + 2) / 4 : Nat) : Int) := by
  unfold expOf
  split
  · rw [show e % 4 / 2 * 2 = 0 by omega]; simp
  · rw [show e % 4 / 2 * 2 = 2 by omega]; simp

theorem codeExp_inv {e : Nat} (he : e ≤ 7687) : codeExp (expOf e) (e % 2 == 1) = e ∧ -1921 ≤ expOf e ∧ expOf e ≤ 1922 := by
  rw [expOf_eq, codeExp]
  rcases Nat.mod_two_eq_zero_or_one e with h | h
  · rw [h, if_neg (show ¬((0 == 1) = true) by decide)]
    split <;> split <;> omega
  · rw [h, if_pos (show (1 == 1) = true by decide)]
    split <;> split <;> omega

theorem expOf_inv {X : Int} (h1 : -1921 ≤ X) (h2 : X ≤ 1922) (s : Bool) : expOf (codeExp X s) = X ∧ (codeExp X s % 2 == 1) = s ∧ codeExp X s ≤ 7687 := by
  have hc : codeExp X s = max (X.natAbs * 4) 2 - 2 + (if X < 0 then 2 else 0) + (if s then 1 else 0) := rfl
  generalize codeExp X s = e at *
  rw [expOf_eq]
  have h3 : (if s then 1 else 0 : Nat) = s.toNat := by cases s <;> rfl
  have h4 : s.toNat ≤ 1 := Bool.toNat_le s
  rw [h3] at hc
  have h5 : e % 2 = s.toNat := by split at hc <;> omega
  refine ⟨?_, ?_, ?_⟩
  · split at hc <;> split <;> omega
  · rw [h5]; cases s <;> rfl
  · split at hc <;> omega

/-! ### numbers -/

/-- what `into_code13` does for mantissa `D` and exponent `Y` of the number `x` -/
def codeOut (x : F192) (s : Bool) (p : Nat × Int) : M (Except ConvErr (List Nat)) :=
  if p.2 + 64 < -1921 then pure (.ok code13_zero)
  else if p.2 + 64 > 1922 then to_approx_string x >>= fun _ => pure (.error .notInRange)
  else pure (.ok (codeStrip (codeDigits (codeExp (p.2 + 64) s) (p.1 - BASE))))

/-- mantissa and exponent after rounding -/
def codeRnd (r : Nat) (Y : Int) : Nat × Int :=
  if r % 32 > 15 then if r / 32 + 1 = BASE * 2 then (BASE, Y + 1) else (r / 32 + 1, Y) else (r / 32, Y)

/-- the number of places that are cut off -/
def codeCut (m : Nat) : Nat := if BASE * 64 ≤ m / 2 ^ 57 then 58 else 57

theorem codeCut_bounds {m : Nat} (hm : Nrm m) : BASE * 32 ≤ m / 2 ^ codeCut m ∧ m / 2 ^ codeCut m < BASE * 64 := by
  obtain ⟨h1, h2⟩ := hm
  unfold codeCut BASE
  split
  · refine ⟨?_, ?_⟩ <;> omega
  · refine ⟨?_, ?_⟩ <;> omega

theorem codeScale_c {m : Nat} (hm : Nrm m) {E : Int} (h1 : -9223372036854775808 ≤ E) (h2 : E ≤ 9223372036854775000) :
    codeScale (m / 2 ^ 57) (E + 57) = pure (m / 2 ^ codeCut m, E + codeCut m) := by
  obtain ⟨b1, b2⟩ := codeCut_bounds hm
  unfold codeCut at *
  rw [codeScale]
  by_cases h : BASE * 64 ≤ m / 2 ^ 57
  · rw [if_pos h] at b1 b2
    rw [if_pos h, if_pos h, i64_eq (by omega) (by omega), pure_bind, codeScale, show m / 2 ^ 57 / 2 = m / 2 ^ 58 by omega, if_neg (by omega)]
    simp only [add_assoc]
    rfl
  · rw [if_neg h, if_neg h]
    rfl

theorem into_eq' {s : Bool} {m e : Nat} {E : Int} (hm : Nrm m) (hz : ¬Z s m e) (he : expI64 (mk' s m e) = pure E) (h1 : -9223372036854775808 ≤ E) (h2 : E ≤ 9223372036854774000) :
    into_code13 (mk' s m e) = codeOut (mk' s m e) s (codeRnd (m / 2 ^ codeCut m) (E + codeCut m + 5)) := by
  obtain ⟨b1, b2⟩ := codeCut_bounds hm
  have hk : codeCut m ≤ 58 := by unfold codeCut; split <;> omega
  rw [into_code13, is_zero_mk hm, if_neg (by simpa [Z] using hz), or_mk hm, he, pure_bind, i64_eq (by omega) (by omega), pure_bind,
    codeScale_c hm (by omega) (by omega), pure_bind, i64_eq (by omega) (by omega), pure_bind]
  generalize hr : m / 2 ^ codeCut m = r at *
  generalize hY : E + codeCut m + 5 = Y at *
  have hY1 : -9223372036854775808 ≤ Y := by omega
  have hY2 : Y ≤ 9223372036854775000 := by omega
  have hc : codeRound (r % 32) (r / 32) Y = pure (codeRnd r Y) := by
    unfold codeRound codeRnd
    split
    · split
      · rw [i64_eq (by omega) (by omega), pure_bind]
      · rfl
    · rfl
  have hc2 : BASE ≤ (codeRnd r Y).1 ∧ -9223372036854775808 ≤ (codeRnd r Y).2 ∧ (codeRnd r Y).2 ≤ 9223372036854775001 := by
    unfold codeRnd
    split
    · split
      · exact ⟨le_refl _, by omega, by simp only; omega⟩
      · refine ⟨by simp only; omega, by omega, by omega⟩
    · refine ⟨by simp only; omega, by omega, by omega⟩
  rw [hc, pure_bind, uSub_eq hc2.1, pure_bind, i64_eq (by omega) (by omega), pure_bind, is_neg_mk hm]
  unfold codeOut
  split
  · rfl
  · split <;> rfl

theorem into_eq {s : Bool} {m e : Nat} (hm : Nrm m) (hz : ¬Z s m e) (he : e < 9223372036854775808) :
    into_code13 (mk' s m e) = codeOut (mk' s m e) s (codeRnd (m / 2 ^ codeCut m) ((e : Int) - 281474976710656 + codeCut m + 5)) :=
  into_eq' hm hz (expI64_c he) (by omega) (by omega)

/-- the shift that normalises -/
theorem lz_code {D : Nat} (h1 : BASE ≤ D) (h2 : D < BASE * 2) : (D < 36893488147419103232 ∧ lz128 D = 63) ∨
    (36893488147419103232 ≤ D ∧ lz128 D = 62) := by
  unfold BASE at *
  rw [lz128, if_neg (by omega)]
  rcases lt_or_ge D 36893488147419103232 with h | h
  · have a := (Nat.le_log2 (n := D) (k := 64) (by omega)).2 (by norm_num; omega)
    have b := (Nat.log2_lt (n := D) (k := 65) (by omega)).2 (by norm_num; omega)
    left; omega
  · have a := (Nat.le_log2 (n := D) (k := 65) (by omega)).2 (by norm_num; omega)
    have b := (Nat.log2_lt (n := D) (k := 66) (by omega)).2 (by norm_num; omega)
    right; omega

theorem codeNumber_c {e D g : Nat} (he : e ≤ 7687) (h1 : BASE ≤ D) (h2 : D < BASE * 2) (hg : (g : Int) = expOf e - 64 + 281474976710656) :
    Nrm (D * 2 ^ lz128 D) ∧ codeNumber e D = mk' (e % 2 == 1) (D * 2 ^ lz128 D) (g - lz128 D) ∧
      281474970000000 ≤ g ∧ g ≤ 281474980000000 ∧ mg (D * 2 ^ lz128 D) (g - lz128 D) = D * ulp g := by
  obtain ⟨-, b1, b2⟩ := codeExp_inv he
  have hl := lz_code h1 h2
  have hN : Nrm (D * 2 ^ lz128 D) := by
    unfold BASE at *
    rcases hl with ⟨a, b⟩ | ⟨a, b⟩
    · rw [b]; exact ⟨by omega, by omega⟩
    · rw [b]; exact ⟨by omega, by omega⟩
  have hle : lz128 D ≤ 63 := by omega
  refine ⟨hN, ?_, by omega, by omega, ?_⟩
  · unfold codeNumber
    simp only []
    rw [show (((e + 2) / 4 : Nat) : Int) * (((e % 4 / 2 * 2 : Nat) : Int) - 1) = expOf e from rfl,
      Nat.mod_eq_of_lt (show D * 2 ^ lz128 D < 2 ^ 128 from hN.2)]
    have hE : asU64 (expOf e - lz128 D - 64 + (EXP_COEFF : Int)) = g - lz128 D := by
      refine asU64_nat ?_ (by omega)
      rw [show (EXP_COEFF : Int) = 281474976710656 from rfl]
      omega
    rw [hE]
    refine pack_mk hN ?_
    have := hN.1
    have := hN.2
    omega
  · rw [mg_eq]
    push_cast
    rw [mul_assoc, mul_comm (2 ^ lz128 D) (ulp _), ← ulp_add]
    rw [Nat.sub_add_cancel (by omega)]

/-- encoding a decoded number -/
theorem into_number {e D : Nat} (he : e ≤ 7687) (h1 : BASE ≤ D) (h2 : D < BASE * 2) :
    into_code13 (codeNumber e D) = pure (.ok (codeStrip (codeDigits e (D - BASE)))) := by
  obtain ⟨c1, b1, b2⟩ := codeExp_inv he
  obtain ⟨g, hg⟩ : ∃ g : Nat, (g : Int) = expOf e - 64 + 281474976710656 := ⟨(expOf e - 64 + 281474976710656).toNat, by omega⟩
  obtain ⟨hN, n1, n2, n3, -⟩ := codeNumber_c he h1 h2 hg
  have hl := lz_code h1 h2
  rw [n1, into_eq hN (nz_exp (by omega)) (by omega)]
  have hr : codeRnd (D * 2 ^ lz128 D / 2 ^ codeCut (D * 2 ^ lz128 D)) (((g - lz128 D : Nat) : Int) - 281474976710656 + codeCut (D * 2 ^ lz128 D) + 5) =
      (D, expOf e - 64) := by
    unfold BASE at *
    have hc : codeCut (D * 2 ^ lz128 D) = lz128 D - 5 := by
      unfold codeCut BASE
      rcases hl with ⟨a, b⟩ | ⟨a, b⟩
      · rw [b, if_pos (by omega)]
      · rw [b, if_neg (by omega)]
    rw [hc]
    have hd : D * 2 ^ lz128 D / 2 ^ (lz128 D - 5) = D * 32 := by
      rcases hl with ⟨a, b⟩ | ⟨a, b⟩ <;> rw [b] <;> omega
    rw [hd, codeRnd, if_neg (by omega), Nat.mul_div_cancel _ (by norm_num)]
    refine Prod.ext rfl ?_
    simp only
    omega
  rw [hr, codeOut]
  simp only []
  rw [sub_add_cancel, if_neg (by omega), if_neg (by omega), c1]

theorem codeRnd_c {m e : Nat} (hm : Nrm m) {Y : Int} (hY : Y = (e : Int) - 281474976710656 + codeCut m + 5) :
    BASE ≤ (codeRnd (m / 2 ^ codeCut m) Y).1 ∧ (codeRnd (m / 2 ^ codeCut m) Y).1 < BASE * 2 ∧
    ∃ g : Nat, (codeRnd (m / 2 ^ codeCut m) Y).2 = (g : Int) - 281474976710656 ∧ e + 62 ≤ g ∧ g ≤ e + 64 ∧
      |(codeRnd (m / 2 ^ codeCut m) Y).1 * ulp g - mg m e| * (2 * (BASE : ℚ)) ≤ mg m e := by
  obtain ⟨b1, b2⟩ := codeCut_bounds hm
  have hk : codeCut m = 57 ∨ codeCut m = 58 := by unfold codeCut; split <;> simp
  have hpos := ulp_pos e
  -- the rounded number before a carry
  have key : ∀ D0 : Nat, (m : Int) - 2 ^ (codeCut m + 4) ≤ D0 * 2 ^ (codeCut m + 5) → (D0 : Int) * 2 ^ (codeCut m + 5) ≤ m + 2 ^ (codeCut m + 4) →
      |(D0 : ℚ) * ulp (e + (codeCut m + 5)) - mg m e| * (2 * (BASE : ℚ)) ≤ mg m e := by
    intro D0 k1 k2
    rw [ulp_add, mg_eq, show (D0 : ℚ) * (ulp e * 2 ^ (codeCut m + 5)) - m * ulp e = (D0 * 2 ^ (codeCut m + 5) - m) * ulp e by ring,
      abs_mul, abs_of_pos hpos, mul_right_comm]
    refine mul_le_mul_of_nonneg_right ?_ hpos.le
    have k3 : |(D0 : ℚ) * 2 ^ (codeCut m + 5) - m| ≤ 2 ^ (codeCut m + 4) := by
      rw [abs_le]
      have k1' : (m : ℚ) - 2 ^ (codeCut m + 4) ≤ D0 * 2 ^ (codeCut m + 5) := by exact_mod_cast k1
      have k2' : (D0 : ℚ) * 2 ^ (codeCut m + 5) ≤ m + 2 ^ (codeCut m + 4) := by exact_mod_cast k2
      constructor <;> linarith
    refine le_trans (mul_le_mul_of_nonneg_right k3 (by positivity)) ?_
    have : 2 ^ (codeCut m + 4) * (2 * BASE) ≤ m := by
      refine le_trans ?_ (Nat.div_mul_le_self m (2 ^ codeCut m))
      calc 2 ^ (codeCut m + 4) * (2 * BASE) = BASE * 32 * 2 ^ codeCut m := by ring
        _ ≤ m / 2 ^ codeCut m * 2 ^ codeCut m := Nat.mul_le_mul_right _ b1
    exact_mod_cast this
  generalize hr : m / 2 ^ codeCut m = r at *
  have hm1 : 2 ^ codeCut m * r ≤ m := by rw [← hr]; exact Nat.mul_div_le m _
  have hm2 : m < 2 ^ codeCut m * (r + 1) := by
    rw [← hr]; exact Nat.lt_mul_div_succ m (by positivity)
  unfold codeRnd
  by_cases h15 : r % 32 > 15
  · rw [if_pos h15]
    have kk := key (r / 32 + 1) (by
      rcases hk with h | h <;> rw [h] at hm1 hm2 ⊢ <;> push_cast <;> omega) (by
      rcases hk with h | h <;> rw [h] at hm1 hm2 ⊢ <;> push_cast <;> omega)
    by_cases hc : r / 32 + 1 = BASE * 2
    · rw [if_pos hc]
      refine ⟨le_refl _, by unfold BASE; omega, e + (codeCut m + 5) + 1, by push_cast; rw [hY]; ring, by omega, by omega, ?_⟩
      rw [hc] at kk
      rw [ulp_add, pow_one]
      push_cast at kk
      rwa [mul_assoc, mul_comm (2 : ℚ)] at kk
    · rw [if_neg hc]
      refine ⟨by simp only; omega, by simp only; omega, e + (codeCut m + 5), by push_cast; rw [hY]; ring, by omega, by omega, ?_⟩
      exact kk
  · rw [if_neg h15]
    refine ⟨by simp only; omega, by simp only; omega, e + (codeCut m + 5), by push_cast; rw [hY]; ring, by omega, by omega, ?_⟩
    exact key (r / 32) (by
      rcases hk with h | h <;> rw [h] at hm1 hm2 ⊢ <;> push_cast <;> omega) (by
      rcases hk with h | h <;> rw [h] at hm1 hm2 ⊢ <;> push_cast <;> omega)

/-! ### decoding -/

theorem from_vals {s : List Nat} (hz : is_code13_zero s = false) (hs : s ≠ []) (hl : s.length ≤ 13)
    {v0 v1 v2 v3 v4 v5 v6 v7 v8 v9 v10 v11 v12 : Nat}
    (hv : ∀ v ∈ [v0, v1, v2, v3, v4, v5, v6, v7, v8, v9, v10, v11, v12], v < 62)
    (h : List.replicate (13 - s.length) 48 ++ s = [v0, v1, v2, v3, v4, v5, v6, v7, v8, v9, v10, v11, v12].map codeChar) :
    from_code13 s = .ok (codeNumber (v0 * 124 + v1 * 2 + v2 / 31)
      (codeSum [v3, v4, v5, v6, v7, v8, v9, v10, v11, v12] 0 / 2 + v2 % 31 + BASE)) := by
  rw [from_code13, hz, if_neg (by simp), if_pos hl, if_neg (by simpa using hs), h, codeVals_map hv]

theorem list13 {l : List Nat} (h : l.length = 13) : ∃ v0 v1 v2 v3 v4 v5 v6 v7 v8 v9 v10 v11 v12,
    l = [v0, v1, v2, v3, v4, v5, v6, v7, v8, v9, v10, v11, v12] := by
  match l, h with
  | [v0, v1, v2, v3, v4, v5, v6, v7, v8, v9, v10, v11, v12], _ => exact ⟨_, _, _, _, _, _, _, _, _, _, _, _, _, rfl⟩

/-- every string of up to 13 letters and digits other than the code of zero -/
theorem from_alnum {s : List Nat} (hz : is_code13_zero s = false) (hs : s ≠ []) (hl : s.length ≤ 13) (ha : ∀ c ∈ s, IsAlnum c) :
    ∃ e d, e ≤ 7687 ∧ d < BASE ∧ from_code13 s = .ok (codeNumber e (d + BASE)) ∧
      codeDigits e d = List.replicate (13 - s.length) 48 ++ s := by
  obtain ⟨vs, h1, h2⟩ := exists_vals ha
  have hlen : vs.length = s.length := by rw [h1, List.length_map]
  have h3 : List.replicate (13 - s.length) 48 ++ s = (List.replicate (13 - s.length) 0 ++ vs).map codeChar := by
    rw [List.map_append, ← h1, List.map_replicate]; rfl
  obtain ⟨v0, v1, v2, v3, v4, v5, v6, v7, v8, v9, v10, v11, v12, hv⟩ := list13 (l := List.replicate (13 - s.length) 0 ++ vs) (by
    rw [List.length_append, List.length_replicate, hlen]; omega)
  have hb : ∀ v ∈ [v0, v1, v2, v3, v4, v5, v6, v7, v8, v9, v10, v11, v12], v < 62 := by
    rw [← hv]
    intro v hm
    rcases List.mem_append.1 hm with hm | hm
    · rw [List.mem_replicate] at hm; omega
    · exact h2 v hm
  rw [hv] at h3
  have hf := from_vals hz hs hl hb h3
  simp only [List.mem_cons, List.not_mem_nil, or_false, forall_eq_or_imp, forall_eq] at hb
  obtain ⟨a0, a1, a2, a3, a4, a5, a6, a7, a8, a9, a10, a11, a12⟩ := hb
  obtain ⟨g1, g2⟩ := digits_inv (v0 := v0) a1 a2 a3 a4 a5 a6 a7 a8 a9 a10 a11 a12
  exact ⟨_, _, by omega, g2, hf, by rw [g1, h3]⟩

theorem sum_eq (v3 v4 v5 v6 v7 v8 v9 v10 v11 v12 : Nat) : codeSum [v3, v4, v5, v6, v7, v8, v9, v10, v11, v12] 0 / 2 =
    31 * (v12 + 62 * (v11 + 62 * (v10 + 62 * (v9 + 62 * (v8 + 62 * (v7 + 62 * (v6 + 62 * (v5 + 62 * (v4 + 62 * v3))))))))) := by
  simp only [codeSum]
  omega

theorem horner_sum (d : Nat) : 31 * (d / 31 % 62 + 62 * (d / 1922 % 62 + 62 * (d / 119164 % 62 + 62 * (d / 7388168 % 62 + 62 * (d / 458066416 % 62 +
    62 * (d / 28400117792 % 62 + 62 * (d / 1760807303104 % 62 + 62 * (d / 109170052792448 % 62 + 62 * (d / 6768543273131776 % 62 +
    62 * (d / 419649682934170112)))))))))) + d % 31 = d := by
  have h (k : Nat) : d / (k * 62) = d / k / 62 := (Nat.div_div_eq_div_mul _ _ _).symm
  rw [show 419649682934170112 = 6768543273131776 * 62 by norm_num, h, Nat.mod_add_div,
    show 6768543273131776 = 109170052792448 * 62 by norm_num, h, Nat.mod_add_div,
    show 109170052792448 = 1760807303104 * 62 by norm_num, h, Nat.mod_add_div,
    show 1760807303104 = 28400117792 * 62 by norm_num, h, Nat.mod_add_div,
    show 28400117792 = 458066416 * 62 by norm_num, h, Nat.mod_add_div,
    show 458066416 = 7388168 * 62 by norm_num, h, Nat.mod_add_div,
    show 7388168 = 119164 * 62 by norm_num, h, Nat.mod_add_div,
    show 119164 = 1922 * 62 by norm_num, h, Nat.mod_add_div,
    show 1922 = 31 * 62 by norm_num, h, Nat.mod_add_div]
  exact Nat.div_add_mod d 31

theorem digit_lt {d k : Nat} : d / k % 62 < 62 := Nat.mod_lt _ (by norm_num)

/-- decoding the characters of a code -/
theorem from_digits {e d : Nat} (he : e ≤ 7687) (hd : d < BASE) (hz : is_code13_zero (codeStrip (codeDigits e d)) = false) :
    from_code13 (codeStrip (codeDigits e d)) = .ok (codeNumber e (d + BASE)) := by
  obtain ⟨p1, p2, p3⟩ := pad_strip (codeDigits e d) (by simp [codeDigits])
  have hlen : (codeDigits e d).length = 13 := rfl
  rw [hlen] at p2 p3
  have hv : codeDigits e d = [e / 124, e % 124 / 2, e % 2 * 31 + d % 31, d / 419649682934170112,
    d / 6768543273131776 % 62, d / 109170052792448 % 62, d / 1760807303104 % 62, d / 28400117792 % 62, d / 458066416 % 62,
    d / 7388168 % 62, d / 119164 % 62, d / 1922 % 62, d / 31 % 62].map codeChar := rfl
  rw [from_vals hz p1 p2 ?_ (p3.trans hv)]
  · congr 2
    · omega
    · congr 1
      rw [sum_eq, show (e % 2 * 31 + d % 31) % 31 = d % 31 by omega]
      exact horner_sum d
  · unfold BASE at hd
    simp only [List.mem_cons, List.not_mem_nil, or_false, forall_eq_or_imp, forall_eq]
    exact ⟨by omega, by omega, by omega, by omega, digit_lt, digit_lt, digit_lt, digit_lt, digit_lt, digit_lt, digit_lt, digit_lt, digit_lt⟩

theorem codeChar_inj {a b : Nat} (ha : a < 62) (hb : b < 62) (h : codeChar a = codeChar b) : a = b := by
  have := codeVal_char ha
  rw [h, codeVal_char hb] at this
  exact (Except.ok.inj this).symm

theorem alnum_digits {e d : Nat} (he : e ≤ 7687) (hd : d < BASE) : ∀ c ∈ codeDigits e d, IsAlnum c := by
  have h1 : e / 124 < 62 := by omega
  have h2 : e % 124 / 2 < 62 := by omega
  have h3 : e % 2 * 31 + d % 31 < 62 := by omega
  have h4 : d / 419649682934170112 < 62 := by unfold BASE at hd; omega
  intro c hc
  simp only [codeDigits, List.mem_cons, List.not_mem_nil, or_false] at hc
  rcases hc with h | h | h | h | h | h | h | h | h | h | h | h | h <;> rw [h] <;> apply alnum_char <;> first | assumption | exact digit_lt

/-- the code of zero also is the code of a number -/
theorem digits_zero {e d : Nat} (he : e ≤ 7687) (hd : d < BASE) (hz : is_code13_zero (codeStrip (codeDigits e d)) = true) : e = 7684 ∧ d = 0 := by
  obtain ⟨p1, p2, p3⟩ := pad_strip (codeDigits e d) (by simp [codeDigits])
  have hs : codeStrip (codeDigits e d) = [122, 121, 48, 48, 48, 48, 48, 48, 48, 48, 48, 48, 48] := by simpa [is_code13_zero] using hz
  rw [hs, show (codeDigits e d).length = 13 from rfl] at p3
  replace p3 : [codeChar 61, codeChar 60, codeChar 0, codeChar 0, codeChar 0, codeChar 0, codeChar 0, codeChar 0, codeChar 0, codeChar 0,
    codeChar 0, codeChar 0, codeChar 0] = codeDigits e d := p3
  clear p1 p2 hs hz
  unfold codeDigits at p3
  unfold BASE at hd
  simp only [List.cons.injEq] at p3
  obtain ⟨a0, a1, a2, a3, a4, a5, a6, a7, a8, a9, a10, a11, a12, -⟩ := p3
  have b0 := codeChar_inj (by omega) (by omega) a0
  have b1 := codeChar_inj (by omega) (by omega) a1
  have b2 := codeChar_inj (by omega) (by omega) a2
  have b3 := codeChar_inj (by omega) (by omega) a3
  have b4 := codeChar_inj (by omega) digit_lt a4
  have b5 := codeChar_inj (by omega) digit_lt a5
  have b6 := codeChar_inj (by omega) digit_lt a6
  have b7 := codeChar_inj (by omega) digit_lt a7
  have b8 := codeChar_inj (by omega) digit_lt a8
  have b9 := codeChar_inj (by omega) digit_lt a9
  have b10 := codeChar_inj (by omega) digit_lt a10
  have b11 := codeChar_inj (by omega) digit_lt a11
  have b12 := codeChar_inj (by omega) digit_lt a12
  have hh := horner_sum d
  rw [← b3, ← b4, ← b5, ← b6, ← b7, ← b8, ← b9, ← b10, ← b11, ← b12] at hh
  clear a0 a1 a2 a3 a4 a5 a6 a7 a8 a9 a10 a11 a12 b3 b4 b5 b6 b7 b8 b9 b10 b11 b12
  constructor <;> omega

end F192
end Hmath
