import Verif.Proofs.Parse

/-!
# Printing of numbers
-/

namespace Hmath

/-- exactly `k` digits of `d` in base `b` -/
def padDigits (b : Nat) : Nat → Nat → Str
  | 0, _ => []
  | k + 1, d => padDigits b k (d / b) ++ [Nat.digitChar (d % b)]

theorem padDigits_length (b k d : Nat) : (padDigits b k d).length = k := by
  induction k generalizing d with
  | zero => rfl
  | succ k ih => simp [padDigits, ih]

theorem toDigits_append_pad {b n : Nat} (hb : 1 < b) (hn : 0 < n) (k : Nat) :
    ∀ d, d < b ^ k → Nat.toDigits b n ++ padDigits b k d = Nat.toDigits b (n * b ^ k + d) := by
  induction k with
  | zero =>
    intro d hd
    have : d = 0 := by simpa using hd
    simp [padDigits, this]
  | succ k ih =>
    intro d hd
    have h1 : d / b < b ^ k := by
      rw [Nat.div_lt_iff_lt_mul (by omega)]
      rwa [Nat.pow_succ] at hd
    have h2 : d % b < b := Nat.mod_lt _ (by omega)
    rw [padDigits, ← List.append_assoc, ih _ h1]
    have h3 : [Nat.digitChar (d % b)] = Nat.toDigits b (d % b) := (Nat.toDigits_of_lt_base h2).symm
    rw [h3, Nat.toDigits_append_toDigits hb (Nat.add_pos_left (Nat.mul_pos hn (Nat.pow_pos (by omega))) _) h2]
    congr 1
    have := Nat.div_add_mod d b
    rw [Nat.mul_add, Nat.add_assoc, this, Nat.pow_succ]
    ring

theorem padDigits_zero (b k : Nat) : padDigits b k 0 = List.replicate k '0' := by
  induction k with
  | zero => rfl
  | succ k ih =>
    rw [padDigits, Nat.zero_div, Nat.zero_mod, ih, List.replicate_succ']
    rfl

theorem padL_snoc (k : Nat) (s : Str) (c : Char) : padL (k + 1) (s ++ [c]) = padL k s ++ [c] := by
  simp [padL]

theorem padL_toDigits {b : Nat} (hb : 1 < b) (k : Nat) :
    ∀ d, d < b ^ (k + 1) → padL (k + 1) (Nat.toDigits b d) = padDigits b (k + 1) d := by
  induction k with
  | zero =>
    intro d hd
    rw [Nat.zero_add, Nat.pow_one] at hd
    rw [Nat.toDigits_of_lt_base hd]
    simp [padDigits, padL, Nat.mod_eq_of_lt hd]
  | succ k ih =>
    intro d hd
    by_cases h : d < b
    · rw [Nat.toDigits_of_lt_base h, padDigits, Nat.div_eq_of_lt h, Nat.mod_eq_of_lt h,
        padDigits_zero]
      simp [padL]
    · rw [Nat.toDigits_of_base_le hb (by omega), padL_snoc, padDigits, ih]
      rw [Nat.div_lt_iff_lt_mul (by omega)]
      rwa [Nat.pow_succ] at hd

theorem trimZeros_append (s t : Str) :
    trimZeros (s ++ t) = if trimZeros s = [] then trimZeros t else trimZeros s ++ t := by
  induction s with
  | nil => simp [trimZeros]
  | cons c s ih =>
    rw [List.cons_append, trimZeros, trimZeros]
    by_cases h : c = '0'
    · rw [if_pos h, if_pos h, ih]
    · rw [if_neg h, if_neg h]; simp

theorem digitChar_eq_zero : ∀ d < 16, (Nat.digitChar d = '0' ↔ d = 0) := by decide

theorem trim_padDigits {b : Nat} (hb : 1 < b) (hb' : b ≤ 16) (k : Nat) :
    ∀ d, d < b ^ k → trimZeros (padDigits b k d) = if d = 0 then [] else Nat.toDigits b d := by
  induction k with
  | zero =>
    intro d hd
    have : d = 0 := by simpa using hd
    simp [padDigits, this, trimZeros]
  | succ k ih =>
    intro d hd
    have h1 : d / b < b ^ k := by
      rw [Nat.div_lt_iff_lt_mul (by omega)]
      rwa [Nat.pow_succ] at hd
    have h2 : d % b < b := Nat.mod_lt _ (by omega)
    rw [padDigits, trimZeros_append, ih _ h1]
    by_cases h : d < b
    · rw [Nat.div_eq_of_lt h, Nat.mod_eq_of_lt h, if_pos rfl, if_pos rfl]
      simp only [trimZeros]
      have := digitChar_eq_zero d (by omega)
      by_cases h0 : d = 0
      · rw [if_pos (this.2 h0), if_pos h0]
      · rw [if_neg (fun e => h0 (this.1 e)), if_neg h0, Nat.toDigits_of_lt_base h]
    · have h3 : d / b ≠ 0 := by
        rw [Ne, Nat.div_eq_zero_iff]; omega
      rw [if_neg h3, if_neg Nat.toDigits_ne_nil, if_neg (by omega),
        Nat.toDigits_of_base_le hb (by omega : b ≤ d)]

theorem trim_toDigits {b : Nat} (hb : 1 < b) (hb' : b ≤ 16) (d : Nat) :
    trimZeros (Nat.toDigits b d) = if d = 0 then [] else Nat.toDigits b d := by
  induction d using Nat.strong_induction_on with
  | _ d ih =>
    by_cases h : d < b
    · rw [Nat.toDigits_of_lt_base h]
      simp only [trimZeros]
      have := digitChar_eq_zero d (by omega)
      by_cases h0 : d = 0
      · rw [if_pos (this.2 h0), if_pos h0]
      · rw [if_neg (fun e => h0 (this.1 e)), if_neg h0]
    · have h3 : d / b ≠ 0 := by
        rw [Ne, Nat.div_eq_zero_iff]; omega
      rw [Nat.toDigits_of_base_le hb (by omega : b ≤ d), trimZeros_append,
        ih _ (Nat.div_lt_self (by omega) hb), if_neg h3, if_neg Nat.toDigits_ne_nil,
        if_neg (by omega)]

namespace UBig

theorem idx_zero_ofNat (n : Nat) : idx (ofNat n) 0 = pure (n % B32) := by
  have hv := valid_ofNat n
  have hval := val_ofNat n
  cases h : ofNat n with
  | nil => exact absurd h hv.ne
  | cons x xs =>
    rw [h] at hv hval
    have hx := hv.limbs x (by simp)
    have : val (x :: xs) = x + B32 * val xs := by simp [val, Nat.ofDigits_cons]
    rw [this] at hval
    have : x = n % B32 := by omega
    rw [this]; rfl

theorem toDigits_chunks {b k : Nat} (hb : 1 < b) (hk : b ^ k = B32) (lows : List Nat)
    (hl : ∀ d ∈ lows, d < B32) {n : Nat} (hn : 0 < n) :
    Nat.toDigits b n ++ ((lows.map (padDigits b k)).reverse).flatten
      = Nat.toDigits b (n * B32 ^ lows.length + val lows) := by
  induction lows with
  | nil => simp [val]
  | cons x xs ih =>
    rw [List.map_cons, List.reverse_cons, List.flatten_append, ← List.append_assoc,
      ih (fun d hd => hl d (by simp [hd]))]
    have hx := hl x (by simp)
    rw [List.flatten_singleton, toDigits_append_pad hb
      (Nat.add_pos_left (Nat.mul_pos hn (Nat.pow_pos (by decide))) _) k x (by omega), hk]
    congr 1
    have : val (x :: xs) = x + B32 * val xs := by simp [val, Nat.ofDigits_cons]
    rw [this, List.length_cons, Nat.pow_succ]
    ring

theorem finishDigits_cons {b : Nat} {pre : Str} {t : Str} {d : Nat} (rest : List Str)
    (ht : trimZeros t = if d = 0 then [] else Nat.toDigits b d) :
    finishDigits pre (t :: rest) = pure (pre ++ Nat.toDigits b d ++ rest.flatten) := by
  simp only [finishDigits, ht]
  by_cases h : d = 0
  · simp [h]
  · have : (Nat.toDigits b d).length ≠ 0 := by
      have := @Nat.length_toDigits_pos b d
      omega
    simp [h]

theorem finish_limbs {b k : Nat} (hb : 1 < b) (hb' : b ≤ 16) (hk : b ^ (k + 1) = B32) {a : UBig}
    (ha : Valid a) (pre : Str) :
    finishDigits pre (a.map (fun n => padL (k + 1) (Nat.toDigits b n))).reverse
      = pure (pre ++ Nat.toDigits b (val a)) := by
  have hm : a.map (fun n => padL (k + 1) (Nat.toDigits b n)) = a.map (padDigits b (k + 1)) := by
    apply List.map_congr_left
    intro d hd
    exact padL_toDigits hb k d (by rw [hk]; exact ha.limbs d hd)
  rw [hm]
  rcases List.eq_nil_or_concat a with h | ⟨lows, top, h⟩
  · exact absurd h ha.ne
  · subst h
    have htop := ha.limbs top (by simp)
    have hlow : ∀ d ∈ lows, d < B32 := fun d hd => ha.limbs d (by simp [hd])
    rw [List.concat_eq_append, List.map_append, List.reverse_append]
    simp only [List.map_cons, List.map_nil, List.reverse_singleton, List.singleton_append]
    rw [finishDigits_cons _ (trim_padDigits hb hb' (k + 1) top (by rw [hk]; exact htop))]
    rw [List.append_assoc]
    have hval : val (lows ++ [top]) = top * B32 ^ lows.length + val lows := by
      simp [val, Nat.ofDigits_append]; ring
    rw [hval]
    by_cases h0 : top = 0
    · have : lows = [] := by
        by_contra hne
        have := ha.top (by simp [List.length_pos_iff, hne])
        simp [h0] at this
      subst this
      simp [val]
    · rw [toDigits_chunks hb hk lows hlow (by omega)]

theorem to_string_hex_eq {a : UBig} (ha : Valid a) (p : Bool) :
    to_string_hex a p = pure ((if p then ['0', 'x'] else []) ++ Nat.toDigits 16 (val a)) :=
  finish_limbs (b := 16) (k := 7) (by decide) (by decide) (by decide) ha _

theorem to_string_bin_eq {a : UBig} (ha : Valid a) (p : Bool) :
    to_string_bin a p = pure ((if p then ['0', 'b'] else []) ++ Nat.toDigits 2 (val a)) :=
  finish_limbs (b := 2) (k := 31) (by decide) (by decide) (by decide) ha _

theorem decLoop_eq (n : Nat) : ∀ buffer, (ofNat n).length ≤ B32 →
    ∃ l, decLoop (ofNat n) buffer = pure l ∧ l.flatten = Nat.toDigits 10 n ++ buffer.flatten := by
  induction n using Nat.strong_induction_on with
  | _ n ih =>
    intro buffer hlen
    rw [decLoop]
    by_cases h : n < B32
    · rw [if_neg (by rw [ofNat_lt h]; simp), idx_zero_ofNat]
      simp only [pure_bind]
      refine ⟨_, rfl, ?_⟩
      rw [Nat.mod_eq_of_lt h]; simp
    · have hgt : (ofNat n).length > 1 := by
        exact (length_ofNat_gt_iff (by decide)).2 (by simpa using (by omega : B32 ≤ n))
      rw [if_pos hgt, rem_u32_eq (valid_ofNat _) (by decide) (by decide) hlen]
      simp only [pure_bind, val_ofNat]
      have hr : n % 1000000000 < 1000000000 := Nat.mod_lt _ (by decide)
      rw [idx_zero_ofNat]
      simp only [pure_bind]
      rw [div_u32_mut_c (by decide) (by decide)]
      simp only [pure_bind]
      have hdle : n / 1000000000 ≤ n := Nat.div_le_self _ _
      have hlen' : (ofNat (n / 1000000000)).length ≤ B32 :=
        le_trans (length_ofNat_mono hdle) hlen
      obtain ⟨l, h1, h2⟩ := ih (n / 1000000000) (Nat.div_lt_self (by omega) (by decide))
        (padL 9 (Nat.toDigits 10 (n % 1000000000 % B32)) :: buffer) hlen'
      refine ⟨l, h1, ?_⟩
      rw [h2, List.flatten_cons, ← List.append_assoc, Nat.mod_eq_of_lt (by omega),
        padL_toDigits (by decide) 8 _ hr, toDigits_append_pad (by decide) (by omega) 9 _ hr]
      congr 2
      have := Nat.div_add_mod n 1000000000
      omega

theorem to_string_dec_eq {a : UBig} (ha : Valid a) (hlen : a.length ≤ B32) :
    to_string_dec a = pure (Nat.toDigits 10 (val a)) := by
  rw [ha.eq_ofNat] at hlen ⊢
  obtain ⟨l, h1, h2⟩ := decLoop_eq (val a) [] hlen
  simp only [to_string_dec]
  rw [h1]
  simp only [pure_bind]
  rw [h2, val_ofNat]; simp

theorem octLoop_eq (n : Nat) : ∀ buffer,
    ∃ d rest, octLoop (ofNat n) buffer = pure (Nat.toDigits 8 d :: rest) ∧
      Nat.toDigits 8 d ++ rest.flatten = Nat.toDigits 8 n ++ buffer.flatten := by
  induction n using Nat.strong_induction_on with
  | _ n ih =>
    intro buffer
    rw [octLoop]
    by_cases h : n < B32
    · rw [if_neg (by rw [ofNat_lt h]; simp), idx_zero_ofNat]
      simp only [pure_bind]
      refine ⟨_, _, rfl, ?_⟩
      rw [Nat.mod_eq_of_lt h]
    · have hgt : (ofNat n).length > 1 := by
        exact (length_ofNat_gt_iff (by decide)).2 (by simpa using (by omega : B32 ≤ n))
      have hp : (0o10000000000 : Nat) = 2 ^ 30 := by decide
      rw [if_pos hgt, hp, rem_pow2_eq (valid_ofNat _) (by decide)]
      simp only [pure_bind, val_ofNat]
      have hr : n % 2 ^ 30 < 2 ^ 30 := Nat.mod_lt _ (by decide)
      rw [idx_zero_ofNat]
      simp only [pure_bind]
      rw [div_u32_mut_c (by decide) (by decide)]
      simp only [pure_bind]
      obtain ⟨d, rest, h1, h2⟩ := ih (n / 2 ^ 30) (Nat.div_lt_self (by omega) (by decide))
        (padL 10 (Nat.toDigits 8 (n % 2 ^ 30 % B32)) :: buffer)
      refine ⟨d, rest, h1, ?_⟩
      rw [h2, List.flatten_cons, ← List.append_assoc, Nat.mod_eq_of_lt (by omega),
        padL_toDigits (by decide) 9 _ (by simpa using hr),
        toDigits_append_pad (by decide) (by omega) 10 _ (by simpa using hr)]
      congr 2
      have := Nat.div_add_mod n (2 ^ 30)
      omega

theorem to_string_oct_eq {a : UBig} (ha : Valid a) (p : Bool) :
    to_string_oct a p = pure ((if p then ['0', 'o'] else []) ++ Nat.toDigits 8 (val a)) := by
  have e := ha.eq_ofNat
  obtain ⟨d, rest, h1, h2⟩ := octLoop_eq (val a) []
  rw [← e] at h1
  simp only [to_string_oct]
  rw [h1]
  simp only [pure_bind]
  rw [finishDigits_cons (b := 8) (d := d) rest (trim_toDigits (by decide) (by decide) d),
    List.append_assoc, h2]
  simp

end UBig
end Hmath
