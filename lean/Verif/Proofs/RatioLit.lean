import Verif.Spec.RatioStr
import Verif.Proofs.RatioStr

/-!
# Which strings `Ratio::from_string` accepts
-/

namespace Hmath
namespace Ratio

/-! ### characters -/

theorem dec_ascii : ∀ v < 128,
    ((Char.ofNat v) ∈ "0123456789".toList → digitVal (Char.ofNat v) = some (v - 48) ∧ v - 48 < 10) ∧
    (((digitVal (Char.ofNat v)).any (· < 10)) = true → (Char.ofNat v) ∈ "0123456789".toList) := by decide

theorem toLower_ascii' : ∀ v < 128,
    ((Char.ofNat v).toLower = '-' ↔ Char.ofNat v = '-') ∧
    ((Char.ofNat v).toLower = '0' ↔ Char.ofNat v = '0') ∧
    ((Char.ofNat v).toLower = '.' ↔ Char.ofNat v = '.') ∧
    ((Char.ofNat v).toLower = 'e' ↔ (Char.ofNat v = 'e' ∨ Char.ofNat v = 'E')) ∧
    ((toDigit 10 (Char.ofNat v).toLower).isSome = true ↔ Char.ofNat v ∈ "0123456789".toList) := by decide

theorem toLower_big {c : Char} (h : ¬ c.toNat < 128) : c.toLower = c := by
  unfold Char.toLower
  have h1 : ¬ (c.val ≥ 'A'.val ∧ c.val ≤ 'Z'.val) := by
    rintro ⟨_, h2⟩
    have h3 : c.val.toNat ≤ ('Z'.val).toNat := h2
    have h4 : ('Z'.val).toNat = 90 := rfl
    have h5 : c.toNat = c.val.toNat := rfl
    omega
  split
  · rename_i h2
    exact absurd h2 h1
  · rfl

theorem ne_big {c d : Char} (h : ¬ c.toNat < 128) (hd : d.toNat < 128) : c ≠ d := by
  rintro rfl; exact h hd

theorem mem_dec_iff (c : Char) : c ∈ "0123456789".toList ↔ ∃ d < 10, digitVal c = some d := by
  by_cases h : c.toNat < 128
  · have := dec_ascii _ h
    rw [ofNat_toNat_char] at this
    constructor
    · intro hc
      exact ⟨_, (this.1 hc).2, (this.1 hc).1⟩
    · rintro ⟨d, hd, he⟩
      exact this.2 (by rw [he]; simpa using hd)
  · constructor
    · intro hc
      exfalso
      have : ∀ x ∈ "0123456789".toList, x.toNat < 128 := by decide
      exact h (this c hc)
    · rintro ⟨d, hd, he⟩
      rw [digitVal_none (by omega)] at he
      exact absurd he (by simp)

theorem digitVal_dec {c : Char} (h : c ∈ "0123456789".toList) : digitVal c = some (c.toNat - 48) ∧ c.toNat - 48 < 10 := by
  by_cases hc : c.toNat < 128
  · have := (dec_ascii _ hc).1
    rw [ofNat_toNat_char] at this
    exact this h
  · exfalso
    have : ∀ x ∈ "0123456789".toList, x.toNat < 128 := by decide
    exact hc (this c h)

theorem isE_iff (c : Char) : isE c = true ↔ (c = 'e' ∨ c = 'E') := by
  rw [isE, decide_eq_true_iff]
  by_cases h : c.toNat < 128
  · have := (toLower_ascii' _ h).2.2.2.1
    rwa [ofNat_toNat_char] at this
  · rw [toLower_big h]
    exact ⟨fun h => .inl h, fun h' => absurd h' (by
      rintro (h' | h') <;> exact ne_big h (by decide) h')⟩

theorem gnd_cons (c : Char) (cs : Str) : get_non_decimal_char (c :: cs) =
    if c = '-' ∨ c = '0' ∨ c = '.' then get_non_decimal_char cs
    else if c ∈ "0123456789".toList then none else some c := by
  rw [get_non_decimal_char]
  by_cases h : c.toNat < 128
  · obtain ⟨h1, h2, h3, _, h4⟩ := toLower_ascii' _ h
    rw [ofNat_toNat_char] at h1 h2 h3 h4
    simp only [h1, h2, h3, h4]
  · rw [toLower_big h]
    have : ((toDigit 10 c).isSome = true) ↔ c ∈ "0123456789".toList := by
      rw [mem_dec_iff, toDigit10_eq, digitVal_none (by omega)]
      simp
    simp only [this]

theorem dec_plain {c : Char} (h : c ∈ "0123456789_".toList) : c ≠ '.' ∧ isE c = false ∧ c ≠ '-' := by
  have : ∀ x ∈ "0123456789_".toList, x ≠ '.' ∧ isE x = false ∧ x ≠ '-' := by decide
  exact this c h

theorem dec_split {c : Char} : c ∈ "0123456789_".toList ↔ c ∈ "0123456789".toList ∨ c = '_' := by
  have : "0123456789_".toList = "0123456789".toList ++ ['_'] := by decide
  rw [this, List.mem_append, List.mem_singleton]

/-! ### numerals -/

theorem readDigits_dec : ∀ (s : Str) (acc : Nat), IsDec s →
    readDigits 10 (s.filter (· ≠ '_')) acc =
      .ok (s.foldl (fun acc c => if c = '_' then acc else 10 * acc + (c.toNat - '0'.toNat)) acc) := by
  intro s
  induction s with
  | nil => intro acc _; rfl
  | cons c cs ih =>
    intro acc h
    have hcs : IsDec cs := fun x hx => h x (List.mem_cons_of_mem _ hx)
    by_cases hc : c = '_'
    · rw [List.filter_cons_of_neg (by simp [hc]), ih acc hcs, List.foldl_cons, if_pos hc]
    · have hd : c ∈ "0123456789".toList := (dec_split.1 (h c List.mem_cons_self)).resolve_right hc
      obtain ⟨h1, h2⟩ := digitVal_dec hd
      rw [List.filter_cons_of_pos (by simp [hc]), readDigits, h1]
      simp only []
      rw [if_pos h2, ih _ hcs, List.foldl_cons, if_neg hc, show '0'.toNat = 48 from rfl, mul_comm]

theorem isDec_of_read : ∀ (s : Str) (acc v : Nat), readDigits 10 (s.filter (· ≠ '_')) acc = .ok v → IsDec s := by
  intro s
  induction s with
  | nil => intro _ _ _ c hc; exact absurd hc (List.not_mem_nil)
  | cons c cs ih =>
    intro acc v h
    by_cases hc : c = '_'
    · rw [List.filter_cons_of_neg (by simp [hc])] at h
      intro x hx
      rcases List.mem_cons.1 hx with rfl | hx
      · exact dec_split.2 (.inr hc)
      · exact ih _ _ h x hx
    · rw [List.filter_cons_of_pos (by simp [hc]), readDigits] at h
      rcases hd : digitVal c with _ | d
      · rw [hd] at h; simp at h
      · rw [hd] at h
        simp only [] at h
        split_ifs at h with hb
        intro x hx
        rcases List.mem_cons.1 hx with rfl | hx
        · exact dec_split.2 (.inl ((mem_dec_iff _).2 ⟨d, hb, hd⟩))
        · exact ih _ _ h x hx

theorem parseNat_dec {I : Str} (h : IsDec I) (hf : I = ['0'] ∨ ∃ c cs, I = c :: cs ∧ c ≠ '0' ∧ c ≠ '_') :
    parseNat I = .ok (decVal I) := by
  rcases hf with rfl | ⟨c, cs, rfl, h0, hu⟩
  · decide
  · rw [parseNat, if_neg h0]
    have := readDigits_dec (c :: cs) 0 h
    rw [List.filter_cons_of_pos (by simp [hu])] at this
    exact this

theorem parseInt_dec {I : Str} (h : IsDec I) (hf : I = ['0'] ∨ ∃ c cs, I = c :: cs ∧ c ≠ '0' ∧ c ≠ '_')
    (neg : Bool) : parseInt ((if neg then ['-'] else []) ++ I) =
      .ok ((if neg then -1 else 1) * (decVal I : Int)) := by
  have hp := parseNat_dec h hf
  have hne : I ≠ [] := by rcases hf with rfl | ⟨c, cs, rfl, _⟩ <;> simp
  cases neg
  · simp only [Bool.false_eq_true, if_false, List.nil_append, one_mul]
    cases I with
    | nil => exact absurd rfl hne
    | cons c cs =>
      have hc : c ≠ '-' := (dec_plain (h c List.mem_cons_self)).2.2
      have : parseInt (c :: cs) = (parseNat (c :: cs)).map (fun n => (n : Int)) := by
        unfold parseInt
        split
        · rename_i h'; exact absurd h' (by simp)
        · rename_i h'
          injection h' with h' _
          exact absurd h' hc
        · rename_i h'
          injection h' with h1 h2
          subst h1 h2
          rfl
      rw [this, hp]
      rfl
  · simp only [if_true, List.singleton_append]
    rw [parseInt, hp]
    show Except.ok (-(decVal I : Int)) = _
    rw [neg_one_mul]

/-- an accepted integer part that is not hexadecimal -/
theorem dec_of_parse {A B : Str} {z : Int} (h : parseInt A = .ok z)
    (hg : ∀ c, get_non_decimal_char (A ++ B) = some c → isE c = true) :
    ∃ (neg : Bool) (I : Str), A = (if neg then ['-'] else []) ++ I ∧ IsDec I ∧
      (I = ['0'] ∨ ∃ c cs, I = c :: cs ∧ c ≠ '0' ∧ c ≠ '_') := by
  have key : ∀ (I : Str) (n : Nat), parseNat I = .ok n →
      (∀ c, get_non_decimal_char (I ++ B) = some c → isE c = true) →
      IsDec I ∧ (I = ['0'] ∨ ∃ c cs, I = c :: cs ∧ c ≠ '0' ∧ c ≠ '_') := by
    intro I n hn hg
    cases I with
    | nil => simp [parseNat] at hn
    | cons c cs =>
      rw [parseNat] at hn
      by_cases hc : c = '0'
      · subst hc
        rw [if_pos rfl] at hn
        rw [List.cons_append, gnd_cons, if_pos (by simp)] at hg
        cases cs with
        | nil => exact ⟨by intro x hx; rw [List.mem_singleton.1 hx]; decide, .inl rfl⟩
        | cons d ds =>
          exfalso
          rw [List.cons_append, gnd_cons] at hg
          by_cases hu : d = '_'
          · subst hu
            rw [if_neg (by decide), if_neg (by decide)] at hg
            exact absurd (hg _ rfl) (by decide)
          · rw [List.filter_cons_of_pos (by simp [hu])] at hn
            simp only [] at hn
            have hd : d ∈ "xXbBoO".toList := by
              split_ifs at hn with h1 h2 h3
              · rcases h1 with rfl | rfl <;> decide
              · rcases h2 with rfl | rfl <;> decide
              · rcases h3 with rfl | rfl <;> decide
            have hx : ∀ d ∈ "xXbBoO".toList, ¬(d = '-' ∨ d = '0' ∨ d = '.') ∧ d ∉ "0123456789".toList ∧
              isE d = false := by decide
            obtain ⟨g1, g2, g3⟩ := hx d hd
            rw [if_neg g1, if_neg g2] at hg
            exact absurd (hg _ rfl) (by rw [g3]; decide)
      · rw [if_neg hc] at hn
        have hu : c ≠ '_' := by
          rintro rfl
          rw [readDigits] at hn
          have : digitVal '_' = none := by decide
          rw [this] at hn
          simp at hn
        refine ⟨isDec_of_read (c :: cs) 0 n ?_, .inr ⟨c, cs, rfl, hc, hu⟩⟩
        rw [List.filter_cons_of_pos (by simp [hu])]
        exact hn
  unfold parseInt at h
  split at h
  · simp at h
  · rename_i s
    rcases hp : parseNat s with e | n
    · rw [hp] at h; simp [Except.map] at h
    · rw [List.cons_append, gnd_cons, if_pos (by simp)] at hg
      obtain ⟨h1, h2⟩ := key s n hp hg
      exact ⟨true, s, rfl, h1, h2⟩
  · rename_i c s _
    rcases hp : parseNat (c :: s) with e | n
    · rw [hp] at h; simp [Except.map] at h
    · obtain ⟨h1, h2⟩ := key (c :: s) n hp hg
      exact ⟨false, _, rfl, h1, h2⟩

/-! ### cutting the string -/

theorem findIdx?_split {p : Char → Bool} : ∀ {s : Str} {i : Nat}, s.findIdx? p = some i →
    ∃ A c B, s = A ++ c :: B ∧ A.length = i ∧ p c = true ∧ ∀ x ∈ A, p x = false := by
  intro s
  induction s with
  | nil => intro i h; simp at h
  | cons c cs ih =>
    intro i h
    rw [List.findIdx?_cons] at h
    by_cases hc : p c = true
    · rw [if_pos hc] at h
      injection h with h
      exact ⟨[], c, cs, rfl, h, hc, by simp⟩
    · rw [if_neg hc] at h
      rcases hf : cs.findIdx? p with _ | j
      · rw [hf] at h; simp at h
      · rw [hf] at h
        simp only [Option.map_some, Option.some.injEq] at h
        obtain ⟨A, d, B, h1, h2, h3, h4⟩ := ih hf
        refine ⟨c :: A, d, B, by rw [h1]; rfl, by rw [List.length_cons, h2, h], h3, ?_⟩
        intro x hx
        rcases List.mem_cons.1 hx with rfl | hx
        · simpa using hc
        · exact h4 x hx

theorem findIdx?_join {p : Char → Bool} {A B : Str} {c : Char} (hc : p c = true)
    (hA : ∀ x ∈ A, p x = false) : (A ++ c :: B).findIdx? p = some A.length := by
  induction A with
  | nil => rw [List.nil_append, List.findIdx?_cons, if_pos hc]; rfl
  | cons a A ih =>
    rw [List.cons_append, List.findIdx?_cons, if_neg (by rw [hA a List.mem_cons_self]; decide),
      ih (fun x hx => hA x (List.mem_cons_of_mem _ hx))]
    rfl

theorem findIdx?_none {p : Char → Bool} {s : Str} (h : ∀ x ∈ s, p x = false) : s.findIdx? p = none := by
  rw [List.findIdx?_eq_none_iff]
  exact h

theorem strGet_mid (A B C : Str) : strGet (A ++ (B ++ C)) A.length (A.length + B.length) = some B := by
  rw [strGet, if_pos (by constructor; omega; simp)]
  simp

theorem strGet_pre (A C : Str) : strGet (A ++ C) 0 A.length = some A := by
  rw [strGet, if_pos (by constructor; omega; simp)]
  simp

theorem strGet_suf (A : Str) (c : Char) (B : Str) :
    strGet (A ++ c :: B) (A.length + 1) (A ++ c :: B).length = some B := by
  rw [strGet, if_pos (by constructor <;> simp)]
  have : A ++ c :: B = (A ++ [c]) ++ B := by simp
  rw [this, show A.length + 1 = (A ++ [c]).length by simp, List.drop_left,
    List.take_of_length_le (by simp only [List.length_append, List.length_cons, List.length_nil]; omega)]

theorem parseParts_err {s A : Str} {dot e : Option Nat} {stop : Nat} {er : ConvErr}
    (hs : dot = some stop ∨ dot = none ∧ e = some stop) (hA : strGet s 0 stop = some A)
    (hp : parseInt A = .error er) : parseParts s dot e = pure (.error er) := by
  have h2 : unwrapO (some A) = pure A := rfl
  unfold parseParts
  rcases hs with rfl | ⟨rfl, rfl⟩
  · simp only []
    rw [pure_bind, hA, h2, pure_bind, BigI.from_string_eq, hp]
    rfl
  · have h3 : unwrapO (some stop) = pure stop := rfl
    simp only []
    rw [h3, pure_bind, hA, h2, pure_bind, BigI.from_string_eq, hp]
    rfl

/-- strings with a point or an exponent -/
theorem from_string_parts {s : Str} (hg : ∀ c, get_non_decimal_char s = some c → isE c = true)
    (hn : ∃ c ∈ s, c = '.' ∨ isE c = true) :
    from_string s = parseParts s (s.findIdx? (· = '.')) (s.findIdx? isE) := by
  obtain ⟨c, hc, hp⟩ := hn
  have h0 : s ≠ [] := by rintro rfl; exact absurd hc List.not_mem_nil
  have he : eIndex s = s.findIdx? isE := by
    unfold eIndex
    rcases h : get_non_decimal_char s with _ | d
    · rfl
    · have := hg d h
      rw [isE, decide_eq_true_iff] at this
      simp only []
      rw [if_pos (by rw [this]; decide)]
  have hnn : ((s.findIdx? (fun c => decide (c = '.'))).isNone && (eIndex s).isNone) = false := by
    rw [he]
    rcases hp with hp | hp
    · have : s.findIdx? (fun c => decide (c = '.')) ≠ none := by
        rw [Ne, List.findIdx?_eq_none_iff]
        intro h
        simpa [hp] using h c hc
      rw [Option.isNone_eq_false_iff.2 (Option.isSome_iff_ne_none.2 this), Bool.false_and]
    · have : s.findIdx? isE ≠ none := by
        rw [Ne, List.findIdx?_eq_none_iff]
        intro h
        rw [h c hc] at hp
        exact absurd hp (by decide)
      rw [Option.isNone_eq_false_iff.2 (Option.isSome_iff_ne_none.2 this), Bool.and_false]
  unfold from_string
  rw [if_neg h0]
  simp only []
  rw [hnn, if_neg (by decide), he]
  rcases h : get_non_decimal_char s with _ | d
  · rfl
  · have := hg d h
    rw [isE, decide_eq_true_iff] at this
    simp only []
    rw [if_neg (by rw [this]; decide)]

/-- the pieces after the integer part, as they are written -/
def tailText (F : Option Str) (X : Option (Char × Str)) : Str :=
  (match F with | none => [] | some F => '.' :: F) ++ (match X with | none => [] | some (e, X) => e :: X)

theorem mem_tail_dot {F : Option Str} (X : Option (Char × Str)) {G : Str} (h : F = some G) : '.' ∈ tailText F X := by
  subst h
  exact List.mem_append_left _ List.mem_cons_self

theorem mem_tail_e (F : Option Str) {X : Option (Char × Str)} {e : Char} {Y : Str} (h : X = some (e, Y)) :
    e ∈ tailText F X := by
  subst h
  exact List.mem_append_right _ List.mem_cons_self

theorem tailText_some (G : Str) (X : Option (Char × Str)) : tailText (some G) X =
    '.' :: (G ++ match X with | none => [] | some (e, X) => e :: X) := rfl

theorem tailText_none (X : Option (Char × Str)) : tailText none X =
    match X with | none => [] | some (e, X) => e :: X := rfl

theorem tail_parts {A : Str} {F : Option Str} {X : Option (Char × Str)}
    (hA : ∀ x ∈ A, x ≠ '.' ∧ isE x = false) (hF : ∀ G, F = some G → ∀ x ∈ G, isE x = false)
    (hX : ∀ e Y, X = some (e, Y) → isE e = true) (hd : F = none → ∀ e Y, X = some (e, Y) → '.' ∉ Y)
    (hs : F ≠ none ∨ X ≠ none) (hl : (A ++ tailText F X).length < 2 ^ 33) :
    parseParts (A ++ tailText F X) ((A ++ tailText F X).findIdx? (· = '.'))
      ((A ++ tailText F X).findIdx? isE) =
      finish (decide ((A ++ tailText F X).head? = some '-')) A F (X.map Prod.snd) := by
  have hdotE : isE '.' = false := by decide
  have hA1 : ∀ x ∈ A, (fun c : Char => decide (c = '.')) x = false := fun x hx => by
    simpa using (hA x hx).1
  rcases F with _ | F
  · rcases X with _ | ⟨e, X⟩
    · exact absurd hs (by simp)
    · have hx := hX e X rfl
      have hed : e ≠ '.' := by rintro rfl; rw [hdotE] at hx; exact absurd hx (by decide)
      have ht : A ++ tailText none (some (e, X)) = A ++ e :: X := rfl
      rw [ht] at hl ⊢
      have h1 : (A ++ e :: X).findIdx? (· = '.') = none := by
        refine findIdx?_none ?_
        intro x hx'
        rcases List.mem_append.1 hx' with h | h
        · exact hA1 x h
        · rcases List.mem_cons.1 h with rfl | h
          · simpa using hed
          · have := hd rfl e X rfl
            have : x ≠ '.' := by rintro rfl; exact this h
            simpa using this
      have h2 : (A ++ e :: X).findIdx? isE = some A.length := findIdx?_join hx (fun x hx => (hA x hx).2)
      rw [h1, h2]
      refine parseParts_c (stop := A.length) (.inr ⟨rfl, rfl⟩) (strGet_pre _ _) (.inl ⟨rfl, rfl⟩)
        (.inr ⟨_, X, rfl, strGet_suf _ _ _, rfl⟩) ?_
      simp only [List.length_append, List.length_cons] at hl
      simp only [Option.getD_none, List.length_nil]
      omega
  · have hF' := hF F rfl
    rcases X with _ | ⟨e, X⟩
    · have ht : A ++ tailText (some F) none = A ++ '.' :: F := by simp [tailText]
      rw [ht] at hl ⊢
      have h1 : (A ++ '.' :: F).findIdx? (· = '.') = some A.length :=
        findIdx?_join (by simp) hA1
      have h2 : (A ++ '.' :: F).findIdx? isE = none := by
        refine findIdx?_none ?_
        intro x hx'
        rcases List.mem_append.1 hx' with h | h
        · exact (hA x h).2
        · rcases List.mem_cons.1 h with rfl | h
          · exact hdotE
          · exact hF' x h
      rw [h1, h2]
      refine parseParts_c (stop := A.length) (.inl rfl) (strGet_pre _ _)
        (.inr ⟨_, F, rfl, strGet_suf _ _ _, rfl⟩) (.inl ⟨rfl, rfl⟩) ?_
      simp only [List.length_append, List.length_cons] at hl
      simp only [Option.getD_some]
      omega
    · have hx := hX e X rfl
      have ht : A ++ tailText (some F) (some (e, X)) = A ++ '.' :: (F ++ e :: X) := by simp [tailText]
      have ht2 : A ++ '.' :: (F ++ e :: X) = (A ++ '.' :: F) ++ e :: X := by simp
      rw [ht] at hl ⊢
      have h1 : (A ++ '.' :: (F ++ e :: X)).findIdx? (· = '.') = some A.length :=
        findIdx?_join (by simp) hA1
      have h2 : (A ++ '.' :: (F ++ e :: X)).findIdx? isE = some (A ++ '.' :: F).length := by
        rw [ht2]
        refine findIdx?_join hx ?_
        intro x hx'
        rcases List.mem_append.1 hx' with h | h
        · exact (hA x h).2
        · rcases List.mem_cons.1 h with rfl | h
          · exact hdotE
          · exact hF' x h
      rw [h1, h2]
      refine parseParts_c (stop := A.length) (.inl rfl) (strGet_pre _ _)
        (.inr ⟨_, F, rfl, ?_, rfl⟩) (.inr ⟨_, X, rfl, ?_, rfl⟩) ?_
      · rw [Option.getD_some]
        have := strGet_mid (A ++ ['.']) F (e :: X)
        simp only [List.length_append, List.length_cons, List.length_nil, List.append_assoc,
          List.cons_append, List.nil_append] at this ⊢
        rw [← this]
        congr 1
        omega
      · rw [ht2]; exact strGet_suf _ _ _
      · simp only [List.length_append, List.length_cons] at hl
        simp only [Option.getD_some]
        omega

/-! ### literals -/

theorem readDigits_no_dot {b : Nat} : ∀ (s : Str) (acc v : Nat), readDigits b s acc = .ok v → '.' ∉ s := by
  intro s
  induction s with
  | nil => intro _ _ _; exact List.not_mem_nil
  | cons c cs ih =>
    intro acc v h
    rw [readDigits] at h
    rcases hd : digitVal c with _ | d
    · rw [hd] at h; simp at h
    · rw [hd] at h
      simp only [] at h
      split_ifs at h
      intro hm
      rcases List.mem_cons.1 hm with rfl | hm
      · have : digitVal '.' = none := by decide
        rw [this] at hd
        exact absurd hd (by simp)
      · exact ih _ _ h hm

theorem parseNat_no_dot {s : Str} {n : Nat} (h : parseNat s = .ok n) : '.' ∉ s := by
  cases s with
  | nil => exact List.not_mem_nil
  | cons c cs =>
    rw [parseNat] at h
    have hf : '.' ∉ cs.filter (· ≠ '_') → '.' ∉ cs := fun h1 h2 => h1 (List.mem_filter.2 ⟨h2, by decide⟩)
    by_cases hc : c = '0'
    · subst hc
      rw [if_pos rfl] at h
      refine fun hm => absurd (hf ?_) (not_not.2 ((List.mem_cons.1 hm).resolve_left (by decide)))
      rcases hq : cs.filter (· ≠ '_') with _ | ⟨x, ds⟩
      · exact List.not_mem_nil
      · rw [hq] at h
        simp only [] at h
        intro hm
        have key : ∀ b, readNumeral b ds = .ok n → '.' ∉ ds := by
          intro b hb
          rw [readNumeral] at hb
          split_ifs at hb
          exact readDigits_no_dot _ _ _ hb
        split_ifs at h with h1 h2 h3
        · rcases List.mem_cons.1 hm with rfl | hm
          · exact absurd h1 (by decide)
          · exact key _ h hm
        · rcases List.mem_cons.1 hm with rfl | hm
          · exact absurd h2 (by decide)
          · exact key _ h hm
        · rcases List.mem_cons.1 hm with rfl | hm
          · exact absurd h3 (by decide)
          · exact key _ h hm
    · rw [if_neg hc] at h
      have := readDigits_no_dot _ _ _ h
      intro hm
      rcases List.mem_cons.1 hm with rfl | hm
      · exact this List.mem_cons_self
      · exact hf (fun h' => this (List.mem_cons_of_mem _ h')) hm

theorem parseInt_no_dot {s : Str} {z : Int} (h : parseInt s = .ok z) : '.' ∉ s := by
  unfold parseInt at h
  split at h
  · simp at h
  · rename_i s
    rcases hp : parseNat s with e | n
    · rw [hp] at h; simp [Except.map] at h
    · intro hm
      exact parseNat_no_dot hp ((List.mem_cons.1 hm).resolve_left (by decide))
  · rename_i c s _
    rcases hp : parseNat (c :: s) with e | n
    · rw [hp] at h; simp [Except.map] at h
    · exact parseNat_no_dot hp

theorem gnd_tail {X : Option (Char × Str)} (hX : ∀ e Y, X = some (e, Y) → e = 'e' ∨ e = 'E') :
    ∀ c, get_non_decimal_char (match X with | none => [] | some (e, X) => e :: X) = some c → isE c = true := by
  intro c hc
  rcases X with _ | ⟨e, X⟩
  · exact absurd hc (by simp [get_non_decimal_char])
  · rw [gnd_cons] at hc
    have := hX e X rfl
    have g : ¬(e = '-' ∨ e = '0' ∨ e = '.') ∧ e ∉ "0123456789".toList := by
      rcases this with rfl | rfl <;> decide
    rw [if_neg g.1, if_neg g.2] at hc
    injection hc with hc
    rw [← hc, isE_iff]
    exact this

theorem gnd_frac {X : Str} (hX : ∀ c, get_non_decimal_char X = some c → isE c = true) : ∀ {F : Str}, IsDec F →
    (F.dropWhile (· = '0')).head? ≠ some '_' →
    ∀ c, get_non_decimal_char (F ++ X) = some c → isE c = true := by
  intro F
  induction F with
  | nil => intro _ _; exact hX
  | cons f F ih =>
    intro hd hu c hc
    rw [List.cons_append, gnd_cons] at hc
    have hF : IsDec F := fun x hx => hd x (List.mem_cons_of_mem _ hx)
    have hf := hd f List.mem_cons_self
    by_cases h0 : f = '0'
    · rw [if_pos (.inr (.inl h0))] at hc
      rw [List.dropWhile_cons_of_pos (by simpa using h0)] at hu
      exact ih hF hu c hc
    · rw [List.dropWhile_cons_of_neg (by simpa using h0)] at hu
      have hne : f ≠ '_' := by rintro rfl; exact hu rfl
      have hp := dec_plain hf
      rw [if_neg (by rintro (h | h | h); exacts [hp.2.2 h, h0 h, hp.1 h]),
        if_pos ((dec_split.1 hf).resolve_right hne)] at hc
      exact absurd hc (by simp)

theorem gnd_frac_conv {X : Str} : ∀ {F : Str},
    (∀ c, get_non_decimal_char (F ++ X) = some c → isE c = true) →
    (F.dropWhile (· = '0')).head? ≠ some '_' := by
  intro F
  induction F with
  | nil => intro _; simp
  | cons f F ih =>
    intro h
    rw [List.cons_append, gnd_cons] at h
    by_cases h0 : f = '0'
    · rw [if_pos (.inr (.inl h0))] at h
      rw [List.dropWhile_cons_of_pos (by simpa using h0)]
      exact ih h
    · rw [List.dropWhile_cons_of_neg (by simpa using h0)]
      intro hu
      have : f = '_' := by simpa using hu
      subst this
      rw [if_neg (by decide), if_neg (by decide)] at h
      exact absurd (h _ rfl) (by decide)

theorem gnd_sign (neg : Bool) (s : Str) :
    get_non_decimal_char ((if neg then ['-'] else []) ++ s) = get_non_decimal_char s := by
  cases neg
  · rfl
  · rw [if_pos rfl, List.singleton_append, gnd_cons, if_pos (by simp)]

theorem text_eq (l : RatLit) : l.text = ((if l.neg then ['-'] else []) ++ l.int) ++ tailText l.frac l.exp := rfl

theorem gnd_text {l : RatLit} (h : l.WF) : ∀ c, get_non_decimal_char l.text = some c → isE c = true := by
  intro c hc
  rw [text_eq, List.append_assoc, gnd_sign] at hc
  have hX : ∀ c, get_non_decimal_char (match l.exp with | none => [] | some (e, X) => e :: X) = some c →
      isE c = true := gnd_tail (fun e Y hy => (h.exp e Y hy).1)
  rcases h.first with h0 | ⟨d, ds, hi, h0, hu⟩
  · rw [h0, List.singleton_append, gnd_cons, if_pos (by simp)] at hc
    rcases hF : l.frac with _ | F
    · rw [hF, tailText_none] at hc
      exact hX c hc
    · rw [hF, tailText_some, gnd_cons, if_pos (by simp)] at hc
      exact gnd_frac hX (h.frac F hF) (h.under F hF h0) c hc
  · rw [hi, List.cons_append, gnd_cons] at hc
    have hd := h.int d (by rw [hi]; exact List.mem_cons_self)
    have hp := dec_plain hd
    rw [if_neg (by rintro (h | h | h); exacts [hp.2.2 h, h0 h, hp.1 h]),
      if_pos ((dec_split.1 hd).resolve_right hu)] at hc
    exact absurd hc (by simp)

/-- the sign of a literal -/
theorem text_head {neg : Bool} {I B : Str} (h : IsDec I) (hne : I ≠ []) :
    decide ((((if neg then ['-'] else []) ++ I) ++ B).head? = some '-') = neg := by
  cases neg
  · cases I with
    | nil => exact absurd rfl hne
    | cons c cs =>
      have := (dec_plain (h c List.mem_cons_self)).2.2
      simp [this]
  · simp

theorem first_ne {I : Str} (hf : I = ['0'] ∨ ∃ c cs, I = c :: cs ∧ c ≠ '0' ∧ c ≠ '_') : I ≠ [] := by
  rcases hf with rfl | ⟨c, cs, rfl, _⟩ <;> simp

theorem fracQ_dec {F : Option Str} (h : ∀ G, F = some G → IsDec G) :
    fracQ F = .ok ((decVal (F.getD []) : ℚ) / 10 ^ decLen (F.getD [])) := by
  cases F with
  | none => rw [fracQ]; simp [decVal]
  | some F =>
    rw [fracQ, readDigits_dec F 0 (h F rfl)]
    rfl

/-- parsing a well formed literal -/
theorem from_string_text {l : RatLit} (h : l.WF) (hl : l.text.length < 2 ^ 33) :
    from_string l.text = if ¬(-2147483648 ≤ l.expo ∧ l.expo ≤ 2147483647) then pure (.error .notInRange)
      else if l.expo = -2147483648 then throw .overflow else pure (.ok (ofRat l.value)) := by
  have hA : ∀ x ∈ (if l.neg then ['-'] else []) ++ l.int, x ≠ '.' ∧ isE x = false := by
    intro x hx
    rcases List.mem_append.1 hx with hx | hx
    · split_ifs at hx
      · rw [List.mem_singleton.1 hx]; decide
      · exact absurd hx List.not_mem_nil
    · exact ⟨(dec_plain (h.int x hx)).1, (dec_plain (h.int x hx)).2.1⟩
  have hX : ∀ e Y, l.exp = some (e, Y) → isE e = true := fun e Y hy => (isE_iff e).2 (h.exp e Y hy).1
  rw [from_string_parts (gnd_text h), text_eq, tail_parts hA
    (fun G hG x hx => (dec_plain (h.frac G hG x hx)).2.1) hX
    (fun _ e Y hy => (h.exp e Y hy).2.elim fun x hx => parseInt_no_dot hx) h.some hl,
    text_head h.int (first_ne h.first), finish, parseInt_dec h.int h.first]
  · simp only []
    rw [fracQ_dec h.frac]
    simp only []
    have hv : ((((if l.neg then -1 else 1) * (decVal l.int : Int) : Int) : ℚ) +
        if l.neg then -((decVal (l.frac.getD []) : ℚ) / 10 ^ decLen (l.frac.getD []))
          else (decVal (l.frac.getD []) : ℚ) / 10 ^ decLen (l.frac.getD [])) =
        (if l.neg then -1 else 1) * (decVal l.int + decVal l.fracDigits / 10 ^ decLen l.fracDigits) := by
      rw [RatLit.fracDigits]
      cases l.neg
      · simp
      · simp; ring
    rcases hx : l.exp with _ | ⟨e, X⟩
    · have h0 : l.expo = 0 := by rw [RatLit.expo, hx]
      have e1 : ¬ ((0 : Int) = -2147483648) := by norm_num
      have e2 : ¬¬ ((-2147483648 : Int) ≤ 0 ∧ (0 : Int) ≤ 2147483647) := by norm_num
      rw [h0, if_neg e2, if_neg e1, Option.map_none, expQ]
      simp only []
      rw [if_neg e1, hv, RatLit.value, h0]
    · obtain ⟨_, x, hp⟩ := h.exp e X hx
      have h0 : l.expo = x := by rw [RatLit.expo, hx]; simp only [hp]
      rw [h0, Option.map_some, expQ]
      simp only [hp]
      by_cases hr : -2147483648 ≤ x ∧ x ≤ 2147483647
      · rw [if_pos hr, if_neg (not_not.2 hr)]
        simp only []
        rw [hv, RatLit.value, h0]
      · rw [if_neg hr, if_pos hr]
  · rw [text_eq]
    rcases h.some with hs | hs
    · obtain ⟨F, hF⟩ := Option.ne_none_iff_exists'.1 hs
      exact ⟨'.', List.mem_append_right _ (mem_tail_dot _ hF), .inl rfl⟩
    · obtain ⟨⟨e, X⟩, hx⟩ := Option.ne_none_iff_exists'.1 hs
      exact ⟨e, List.mem_append_right _ (mem_tail_e _ hx), .inr (hX e X hx)⟩

theorem fracQ_isDec {F : Option Str} {f : ℚ} (h : fracQ F = .ok f) : ∀ G, F = some G → IsDec G := by
  rintro G rfl
  rw [fracQ] at h
  rcases hr : readDigits 10 (G.filter (· ≠ '_')) 0 with e | v
  · rw [hr] at h; simp at h
  · exact isDec_of_read _ _ _ hr

/-- a string that splits into three parts is a literal or rejected -/
theorem parts_cases {A : Str} {F : Option Str} {X : Option (Char × Str)} {z : Int}
    (hz : parseInt A = .ok z) (hg : ∀ c, get_non_decimal_char (A ++ tailText F X) = some c → isE c = true)
    (hF : ∀ G, F = some G → ∀ x ∈ G, isE x = false)
    (hX : ∀ e Y, X = some (e, Y) → isE e = true) (hd : F = none → ∀ e Y, X = some (e, Y) → '.' ∉ Y)
    (hs : F ≠ none ∨ X ≠ none) (hl : (A ++ tailText F X).length < 2 ^ 33) :
    (∃ l : RatLit, l.WF ∧ l.text = A ++ tailText F X) ∨
      ∃ er, from_string (A ++ tailText F X) = pure (.error er) := by
  obtain ⟨neg, I, rfl, hI, hfst⟩ := dec_of_parse hz hg
  have hA : ∀ x ∈ (if neg then ['-'] else []) ++ I, x ≠ '.' ∧ isE x = false := by
    intro x hx
    rcases List.mem_append.1 hx with hx | hx
    · split_ifs at hx
      · rw [List.mem_singleton.1 hx]; decide
      · exact absurd hx List.not_mem_nil
    · exact ⟨(dec_plain (hI x hx)).1, (dec_plain (hI x hx)).2.1⟩
  have hn : ∃ c ∈ ((if neg then ['-'] else []) ++ I) ++ tailText F X, c = '.' ∨ isE c = true := by
    rcases hs with hs | hs
    · obtain ⟨G, hG⟩ := Option.ne_none_iff_exists'.1 hs
      exact ⟨'.', List.mem_append_right _ (mem_tail_dot _ hG), .inl rfl⟩
    · obtain ⟨⟨e, Y⟩, hx⟩ := Option.ne_none_iff_exists'.1 hs
      exact ⟨e, List.mem_append_right _ (mem_tail_e _ hx), .inr (hX e Y hx)⟩
  have he := (from_string_parts hg hn).trans (tail_parts hA hF hX hd hs hl)
  rcases hfq : fracQ F with er | f
  · right
    refine ⟨er, ?_⟩
    rw [he, finish, hz]
    simp only [hfq]
  · rcases hxq : expQ (X.map Prod.snd) with er | x
    · right
      refine ⟨er, ?_⟩
      rw [he, finish, hz]
      simp only [hfq, hxq]
    · left
      refine ⟨⟨neg, I, F, X⟩, ⟨hI, hfst, fracQ_isDec hfq, ?_, ?_, hs⟩, rfl⟩
      · intro G hG h0
        have hG' : F = some G := hG
        have h0' : I = ['0'] := h0
        subst hG' h0'
        rw [List.append_assoc, gnd_sign, List.singleton_append, gnd_cons, if_pos (by simp), tailText_some,
          gnd_cons, if_pos (by simp)] at hg
        exact gnd_frac_conv hg
      · intro e Y hY
        have hY' : X = some (e, Y) := hY
        refine ⟨(isE_iff e).1 (hX e Y hY'), ?_⟩
        rw [hY', Option.map_some, expQ] at hxq
        rcases hp : parseInt Y with er | y
        · simp only [hp] at hxq
          exact absurd hxq (by simp)
        · exact ⟨y, rfl⟩

/-- every string is a literal, rejected, or an integer -/
theorem from_string_cases {s : Str} (hl : s.length < 2 ^ 33) :
    (∃ l : RatLit, l.WF ∧ l.text = s) ∨ (∃ er, from_string s = pure (.error er)) ∨
      (∃ z : Int, parseInt s = .ok z ∧ from_string s = pure (.ok (ofRat z))) := by
  by_cases h0 : s = []
  · exact .inr (.inl ⟨.noData, by rw [from_string, if_pos h0]⟩)
  by_cases hnn : ((s.findIdx? (fun c => decide (c = '.'))).isNone && (eIndex s).isNone) = true
  · right
    rcases hp : parseInt s with er | z
    · refine .inl ⟨er, ?_⟩
      unfold from_string
      rw [if_neg h0]
      simp only []
      rw [if_pos hnn, BigI.from_string_eq, hp]
      rfl
    · refine .inr ⟨z, rfl, ?_⟩
      unfold from_string
      rw [if_neg h0]
      simp only []
      rw [if_pos hnn, BigI.from_string_eq, hp]
      show (pure (Except.ok (from_bi (ofInt z))) : M (Except ConvErr Ratio)) = _
      rw [from_bi_c]
  by_cases hg : ∀ c, get_non_decimal_char s = some c → isE c = true
  · have he : eIndex s = s.findIdx? isE := by
      unfold eIndex
      rcases h : get_non_decimal_char s with _ | d
      · rfl
      · have := hg d h
        rw [isE, decide_eq_true_iff] at this
        simp only []
        rw [if_pos (by rw [this]; decide)]
    rw [he] at hnn
    rcases hdot : s.findIdx? (fun c => decide (c = '.')) with _ | i
    · rcases hex : s.findIdx? isE with _ | j
      · exact absurd (by rw [hdot, hex, Option.isNone_none, Bool.and_self]) hnn
      · obtain ⟨A, e, X, hs, hlen, hee, hAe⟩ := findIdx?_split hex
        have hnd : '.' ∉ s := fun h => by
          have := List.findIdx?_eq_none_iff.1 hdot '.' h
          simp at this
        rcases hz : parseInt A with er | z
        · right; left
          refine ⟨er, ?_⟩
          rw [from_string_parts hg ⟨e, by rw [hs]; simp, .inr hee⟩, hdot, hex]
          exact parseParts_err (stop := j) (.inr ⟨rfl, rfl⟩) (by rw [hs, ← hlen]; exact strGet_pre _ _) hz
        · have ht : s = A ++ tailText none (some (e, X)) := hs
          rcases parts_cases (F := none) (X := some (e, X)) hz (by rw [← ht]; exact hg) (by simp)
            (by rintro _ _ ⟨⟩; exact hee)
            (by rintro _ _ _ ⟨⟩; exact fun h => hnd (by rw [hs]; simp [h])) (by simp) (by rw [← ht]; exact hl)
            with h | h
          · exact .inl (by rw [ht]; exact h)
          · exact .inr (.inl (by rw [ht]; exact h))
    · obtain ⟨A, d, B, hs, hlen, hd, hAd⟩ := findIdx?_split hdot
      have hd' : d = '.' := by simpa using hd
      subst hd'
      rcases hz : parseInt A with er | z
      · right; left
        refine ⟨er, ?_⟩
        rw [from_string_parts hg ⟨'.', by rw [hs]; simp, .inl rfl⟩, hdot]
        exact parseParts_err (stop := i) (.inl rfl) (by rw [hs, ← hlen]; exact strGet_pre _ _) hz
      · rcases hB : B.findIdx? isE with _ | j
        · have ht : s = A ++ tailText (some B) none := by rw [hs, tailText]; simp
          rcases parts_cases (F := some B) (X := none) hz (by rw [← ht]; exact hg)
            (by rintro _ ⟨⟩; exact List.findIdx?_eq_none_iff.1 hB) (by simp) (by simp) (by simp)
            (by rw [← ht]; exact hl) with h | h
          · exact .inl (by rw [ht]; exact h)
          · exact .inr (.inl (by rw [ht]; exact h))
        · obtain ⟨F, e, X, hs2, _, hee, hFe⟩ := findIdx?_split hB
          have ht : s = A ++ tailText (some F) (some (e, X)) := by rw [hs, tailText, hs2]; simp
          rcases parts_cases (F := some F) (X := some (e, X)) hz (by rw [← ht]; exact hg)
            (by rintro _ ⟨⟩; exact hFe) (by rintro _ _ ⟨⟩; exact hee) (by simp) (by simp)
            (by rw [← ht]; exact hl) with h | h
          · exact .inl (by rw [ht]; exact h)
          · exact .inr (.inl (by rw [ht]; exact h))
  · right; left
    obtain ⟨c, hc⟩ := not_forall.1 hg
    obtain ⟨hc1, hc2⟩ := Classical.not_imp.1 hc
    refine ⟨.invalidChar c, ?_⟩
    unfold from_string
    rw [if_neg h0]
    simp only []
    rw [if_neg hnn, hc1]
    simp only []
    rw [isE, decide_eq_true_iff] at hc2
    rw [if_pos hc2]

/-- integers -/
theorem from_string_int {s : Str} {z : Int} (hp : parseInt s = .ok z)
    (he : (∀ c ∈ s, isE c = false) ∨ ∃ c, get_non_decimal_char s = some c ∧ c.toLower = 'x') :
    from_string s = pure (.ok (ofRat z)) := by
  have h0 : s ≠ [] := by rintro rfl; simp [parseInt] at hp
  have h1 : s.findIdx? (fun c => decide (c = '.')) = none := by
    refine findIdx?_none fun x hx => ?_
    have : x ≠ '.' := by rintro rfl; exact parseInt_no_dot hp hx
    simpa using this
  have h2 : eIndex s = none := by
    unfold eIndex
    rcases he with he | ⟨c, hc, hx⟩
    · have := findIdx?_none (p := isE) he
      rcases get_non_decimal_char s with _ | d
      · exact this
      · simp only []
        split_ifs
        · exact this
        · rfl
    · rw [hc]
      simp only []
      rw [if_neg (by rw [hx]; decide)]
  unfold from_string
  rw [if_neg h0]
  simp only []
  rw [h1, h2, if_pos (by decide), BigI.from_string_eq, hp]
  show (pure (Except.ok (from_bi (ofInt z))) : M (Except ConvErr Ratio)) = _
  rw [from_bi_c]

end Ratio
end Hmath
