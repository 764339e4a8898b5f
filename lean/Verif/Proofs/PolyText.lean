import Verif.Model.Text
import Verif.Spec.PolyText
import Verif.Proofs.Poly
import Verif.Proofs.RatioPrintVal

/-!
# Proofs about the text of polynomials
-/

namespace Hmath
open Polynomial

/-! ## words -/

theorem words_ne (s : List Char) : words s ≠ [] := by
  cases s with
  | nil => simp [words]
  | cons c s =>
    rw [words]
    split
    · simp
    · split <;> simp

theorem words_space (s : List Char) : words (' ' :: s) = [] :: words s := by rw [words, if_pos rfl]

theorem words_append {w : List Char} (h : ' ' ∉ w) (s : List Char) : words (w ++ ' ' :: s) = w :: words s := by
  induction w with
  | nil => exact words_space s
  | cons c w ih =>
    rw [List.mem_cons, not_or] at h
    rw [List.cons_append, words, if_neg (fun e => h.1 e.symm), ih h.2]

theorem words_single {w : List Char} (h : ' ' ∉ w) : words w = [w] := by
  induction w with
  | nil => rfl
  | cons c w ih =>
    rw [List.mem_cons, not_or] at h
    rw [words, if_neg (fun e => h.1 e.symm), ih h.2]

/-- the words after a space at the start -/
def afterSpace : List Char → List (List Char)
  | [] => []
  | _ :: s => words s

/-- nothing, or a space first -/
def Spaced (s : List Char) : Prop := s = [] ∨ ∃ s', s = ' ' :: s'

theorem words_spaced {w s : List Char} (h : ' ' ∉ w) (hs : Spaced s) : words (w ++ s) = w :: afterSpace s := by
  rcases hs with rfl | ⟨s', rfl⟩
  · rw [List.append_nil]; exact words_single h
  · exact words_append h s'

namespace Poly

/-! ## the text -/

/-- the power as text -/
def powStr (k : Nat) : List Char := if k = 0 then [] else if k = 1 then ['x'] else 'x' :: '^' :: Nat.toDigits 10 k

theorem powText_flatten (k : Nat) : (powText k).flatten = powStr k := by
  rw [powText, powStr]
  rcases Nat.lt_trichotomy k 1 with h | h | h
  · have : k = 0 := by omega
    subst this; rfl
  · subst h; rfl
  · rw [if_pos (by simp; omega), if_pos h, if_neg (by omega), if_neg (by omega)]; simp

/-- a term as text, where `t` is the text of the absolute value of the coefficient -/
def termText (t : ℚ → List Char) (p : ℚ × Nat) : List Char :=
  (if |p.1| = 1 ∧ p.2 ≠ 0 then [] else t p.1 ++ (if p.2 > 0 then " * ".toList else [])) ++ powStr p.2

/-- the terms after the first -/
def restText (t : ℚ → List Char) : List (ℚ × Nat) → List Char
  | [] => []
  | p :: r => if p.1 = 0 then restText t r else (if p.1 < 0 then " - ".toList else " + ".toList) ++ (termText t p ++ restText t r)

/-- all terms -/
def fullText (t : ℚ → List Char) : List (ℚ × Nat) → List Char
  | [] => []
  | p :: r => if p.1 = 0 then fullText t r else (if p.1 < 0 then ['-'] else []) ++ (termText t p ++ restText t r)

variable {approx : Option Nat} {t : ℚ → List Char}

theorem absText_c {p : ℚ × Nat} (h : coeffText approx (ofRat |p.1|) = pure (t p.1)) :
    ∃ l, absText approx p.2 (Ratio.abs (ofRat p.1)) = pure l ∧ (l ++ powText p.2).flatten = termText t p := by
  have e1 : Ratio.is_one (ofRat |p.1|) = decide (|p.1| = 1) := Ratio.is_one_c _
  rw [absText, Ratio.abs_c, e1, termText, h]
  by_cases h1 : |p.1| = 1
  · by_cases h2 : p.2 = 0
    · refine ⟨[t p.1], ?_, ?_⟩
      · simp [h1, h2]
      · rw [List.flatten_append, powText_flatten, if_neg (by simp [h2])]; simp [h2]
    · refine ⟨[], ?_, ?_⟩
      · simp [h1, h2]
      · rw [List.flatten_append, powText_flatten, if_pos ⟨h1, h2⟩]; simp
  · refine ⟨if p.2 > 0 then [t p.1, " * ".toList] else [t p.1], ?_, ?_⟩
    · simp [h1]
    · rw [List.flatten_append, powText_flatten, if_neg (c := |p.1| = 1 ∧ p.2 ≠ 0) (fun h => h1 h.1)]
      by_cases h2 : p.2 > 0
      · rw [if_pos h2, if_pos h2]; simp
      · rw [if_neg h2, if_neg h2]; simp

theorem textLoop_rest (items : List (ℚ × Nat)) (ht : ∀ p ∈ items, p.1 ≠ 0 → coeffText approx (ofRat |p.1|) = pure (t p.1)) :
    ∀ {result : List Str}, result ≠ [] → ∃ l, textLoop approx (items.map fun p => (ofRat p.1, p.2)) result = pure l ∧ l ≠ [] ∧
      l.flatten = result.flatten ++ restText t items := by
  induction items with
  | nil => intro result h; exact ⟨result, rfl, h, by simp [restText]⟩
  | cons p items ih =>
    intro result h
    rw [List.map_cons, textLoop, Ratio.is_zero_c, restText]
    by_cases h0 : p.1 = 0
    · rw [decide_eq_true h0, if_pos rfl, if_pos h0]
      exact ih (fun p hp => ht p (List.mem_cons_of_mem _ hp)) h
    · obtain ⟨l, l1, l2⟩ := absText_c (ht p List.mem_cons_self h0)
      have he : result.isEmpty = false := by simpa using h
      rw [decide_eq_false h0, if_neg (by decide), if_neg h0, l1]
      simp only [pure_bind, he, Ratio.is_neg_c]
      obtain ⟨l', r1, r2, r3⟩ := ih (fun p hp => ht p (List.mem_cons_of_mem _ hp))
        (result := result ++ signText false (decide (p.1 < 0)) ++ l ++ powText p.2) (by simp [h])
      refine ⟨l', r1, r2, ?_⟩
      rw [r3, List.append_assoc _ l, List.flatten_append, l2, List.flatten_append, signText]
      by_cases hn : p.1 < 0
      · simp [hn]
      · simp [hn]

theorem textLoop_full (items : List (ℚ × Nat)) (ht : ∀ p ∈ items, p.1 ≠ 0 → coeffText approx (ofRat |p.1|) = pure (t p.1))
    (hne : ∀ p ∈ items, p.1 ≠ 0 → t p.1 ≠ []) :
    ∃ l, textLoop approx (items.map fun p => (ofRat p.1, p.2)) [] = pure l ∧ l.flatten = fullText t items ∧
      (l = [] ↔ ∀ p ∈ items, p.1 = 0) := by
  induction items with
  | nil => exact ⟨[], rfl, rfl, by simp⟩
  | cons p items ih =>
    rw [List.map_cons, textLoop, Ratio.is_zero_c, fullText]
    by_cases h0 : p.1 = 0
    · rw [decide_eq_true h0, if_pos rfl, if_pos h0]
      obtain ⟨l, r1, r2, r3⟩ := ih (fun p hp => ht p (List.mem_cons_of_mem _ hp)) (fun p hp => hne p (List.mem_cons_of_mem _ hp))
      refine ⟨l, r1, r2, r3.trans ?_⟩
      simp [h0]
    · obtain ⟨l, l1, l2⟩ := absText_c (ht p List.mem_cons_self h0)
      rw [decide_eq_false h0, if_neg (by decide), if_neg h0, l1]
      simp only [pure_bind, Ratio.is_neg_c, List.isEmpty_nil, List.nil_append]
      have hlp : l ++ powText p.2 ≠ [] := by
        intro he
        have : termText t p ≠ [] := by
          rw [termText]
          by_cases h1 : |p.1| = 1 ∧ p.2 ≠ 0
          · rw [if_pos h1, powStr, if_neg h1.2]; split <;> simp
          · rw [if_neg h1]
            have := hne p List.mem_cons_self h0
            simp [this]
        rw [he] at l2
        exact this l2.symm
      obtain ⟨l', r1, r2, r3⟩ := textLoop_rest items (fun p hp => ht p (List.mem_cons_of_mem _ hp))
        (result := signText true (decide (p.1 < 0)) ++ l ++ powText p.2) (by
          rw [List.append_assoc]; intro h; exact hlp (List.append_eq_nil_iff.1 h).2)
      refine ⟨l', r1, ?_, ?_⟩
      · rw [r3, List.append_assoc _ l, List.flatten_append, l2, signText]
        by_cases hn : p.1 < 0
        · simp [hn]
        · simp [hn]
      · constructor
        · intro h; exact absurd h r2
        · intro h; exact absurd (h p List.mem_cons_self) h0

/-! ## reading it -/

/-- what the text of a coefficient has to satisfy -/
structure Good (num : List Char → Option ℚ) (s : List Char) (v : ℚ) : Prop where
  space : ' ' ∉ s
  pow : readPow s = none
  num : num s = some v
  minus : s.head? ≠ some '-'
  ne : s ≠ []

theorem powStr_space (k : Nat) : ' ' ∉ powStr k := by
  rw [powStr]
  split
  · simp
  · split
    · simp
    · intro h
      simp only [List.mem_cons] at h
      rcases h with h | h | h
      · exact absurd h (by decide)
      · exact absurd h (by decide)
      · exact absurd (Nat.isDigit_of_mem_toDigits (by norm_num) (by norm_num) h) (by decide)

theorem readPow_powStr {k : Nat} (h : k ≠ 0) : readPow (powStr k) = some k := by
  rw [powStr, if_neg h]
  by_cases h1 : k = 1
  · rw [if_pos h1, h1]; rfl
  · rw [if_neg h1, readPow, Ratio.decVal_toDigits]

/-- the words of a term -/
def termWords (t : ℚ → List Char) (p : ℚ × Nat) : List (List Char) :=
  if p.2 = 0 then [t p.1] else if |p.1| = 1 then [powStr p.2] else [t p.1, ['*'], powStr p.2]

variable {num : List Char → Option ℚ} {v : ℚ → ℚ}

theorem words_term {p : ℚ × Nat} {s : List Char} (h : Good num (t p.1) (v p.1)) (hs : Spaced s) :
    words (termText t p ++ s) = termWords t p ++ afterSpace s := by
  rw [termText, termWords]
  by_cases h0 : p.2 = 0
  · rw [if_neg (by simp [h0]), if_neg (by omega), if_pos h0, powStr, if_pos h0, List.append_nil, List.append_nil, words_spaced h.space hs]
    rfl
  · rw [if_neg h0]
    by_cases h1 : |p.1| = 1
    · rw [if_pos ⟨h1, h0⟩, if_pos h1, List.nil_append, words_spaced (powStr_space _) hs]; rfl
    · rw [if_neg (fun h => h1 h.1), if_neg h1, if_pos (by omega)]
      have : t p.1 ++ " * ".toList ++ powStr p.2 ++ s = t p.1 ++ ' ' :: (['*'] ++ ' ' :: (powStr p.2 ++ s)) := by simp
      rw [this, words_append h.space, words_append (by decide), words_spaced (powStr_space _) hs]
      rfl

theorem readTerm_words {p : ℚ × Nat} {W : List (List Char)} (h : Good num (t p.1) (v p.1)) (hv : |p.1| = 1 → v p.1 = 1)
    (hW : W.head? ≠ some ['*']) : readTerm num (termWords t p ++ W) = some ((p.2, v p.1), W) := by
  rw [termWords]
  by_cases h0 : p.2 = 0
  · rw [if_pos h0, List.singleton_append, readTerm, h.pow]
    simp only [h.num]
    split
    · rename_i p' ws'; exact absurd rfl hW
    · rw [h0]
  · rw [if_neg h0]
    by_cases h1 : |p.1| = 1
    · rw [if_pos h1, List.singleton_append, readTerm, readPow_powStr h0, hv h1]
    · rw [if_neg h1]
      simp only [List.cons_append, List.nil_append]
      rw [readTerm, h.pow]
      simp only [h.num]
      rw [readPow_powStr h0]

/-- the terms that are read -/
def termsOf (v : ℚ → ℚ) : List (ℚ × Nat) → List (Nat × ℚ)
  | [] => []
  | p :: r => if p.1 = 0 then termsOf v r else (p.2, if p.1 < 0 then -v p.1 else v p.1) :: termsOf v r

theorem restText_spaced (items : List (ℚ × Nat)) : Spaced (restText t items) := by
  induction items with
  | nil => left; rfl
  | cons p r ih =>
    rw [restText]
    split
    · exact ih
    · right
      split
      · exact ⟨_, rfl⟩
      · exact ⟨_, rfl⟩

theorem afterSpace_head (items : List (ℚ × Nat)) : (afterSpace (restText t items)).head? ≠ some ['*'] := by
  induction items with
  | nil => simp [restText, afterSpace]
  | cons p r ih =>
    rw [restText]
    split
    · exact ih
    · split
      · have : " - ".toList ++ (termText t p ++ restText t r) = ' ' :: (['-'] ++ ' ' :: (termText t p ++ restText t r)) := by simp
        rw [this, afterSpace, words_append (by decide)]
        simp
      · have : " + ".toList ++ (termText t p ++ restText t r) = ' ' :: (['+'] ++ ' ' :: (termText t p ++ restText t r)) := by simp
        rw [this, afterSpace, words_append (by decide)]
        simp

theorem read_rest (items : List (ℚ × Nat)) (hg : ∀ p ∈ items, p.1 ≠ 0 → Good num (t p.1) (v p.1)) (hv : ∀ q, |q| = 1 → v q = 1) :
    ∀ (n : Nat), (restText t items).length ≤ n → readTerms num n (afterSpace (restText t items)) = some (termsOf v items) := by
  induction items with
  | nil => intro n _; simp [restText, afterSpace, termsOf, readTerms]
  | cons p r ih =>
    intro n hn
    have ih := ih (fun p hp => hg p (List.mem_cons_of_mem _ hp))
    rw [restText] at hn ⊢
    rw [termsOf]
    by_cases h0 : p.1 = 0
    · rw [if_pos h0] at hn ⊢
      rw [if_pos h0]
      exact ih _ hn
    · rw [if_neg h0] at hn ⊢
      rw [if_neg h0]
      have g := hg p List.mem_cons_self h0
      obtain ⟨n, rfl⟩ : ∃ m, n = m + 1 := ⟨n - 1, by
        have : 1 ≤ n := by
          refine le_trans ?_ hn
          rw [List.length_append]
          split <;> simp <;> omega
        omega⟩
      have hr : (restText t r).length ≤ n := by
        rw [List.length_append, List.length_append] at hn
        have : 3 ≤ (if p.1 < 0 then " - ".toList else " + ".toList).length := by split <;> simp
        omega
      have key : ∀ c : Char, c ≠ ' ' → afterSpace ([' ', c, ' '] ++ (termText t p ++ restText t r)) = [c] :: (termWords t p ++ afterSpace (restText t r)) := by
        intro c hc
        have : [' ', c, ' '] ++ (termText t p ++ restText t r) = ' ' :: ([c] ++ ' ' :: (termText t p ++ restText t r)) := by simp
        rw [this, afterSpace, words_append (by simpa using hc.symm), words_term g (restText_spaced r)]
      by_cases hneg : p.1 < 0
      · rw [if_pos hneg, if_pos hneg, show " - ".toList = [' ', '-', ' '] from rfl, key '-' (by decide), readTerms, if_pos (Or.inr rfl),
          readTerm_words g (hv _) (afterSpace_head r)]
        simp only
        rw [ih _ hr]
        simp
      · rw [if_neg hneg, if_neg hneg, show " + ".toList = [' ', '+', ' '] from rfl, key '+' (by decide), readTerms, if_pos (Or.inl rfl),
          readTerm_words g (hv _) (afterSpace_head r)]
        simp only
        rw [ih _ hr]
        simp

theorem termText_head {p : ℚ × Nat} (h : Good num (t p.1) (v p.1)) (s : List Char) : (termText t p ++ s).head? ≠ some '-' ∧ 1 ≤ (termText t p).length := by
  rw [termText]
  by_cases h1 : |p.1| = 1 ∧ p.2 ≠ 0
  · rw [if_pos h1, powStr, if_neg h1.2]
    split <;> simp
  · rw [if_neg h1]
    obtain ⟨c, w, hw⟩ : ∃ c w, t p.1 = c :: w := List.exists_cons_of_ne_nil h.ne
    have := h.minus
    rw [hw] at this ⊢
    simp only [List.cons_append, List.head?_cons] at this ⊢
    exact ⟨this, by simp⟩

theorem read_full (items : List (ℚ × Nat)) (hg : ∀ p ∈ items, p.1 ≠ 0 → Good num (t p.1) (v p.1)) (hv : ∀ q, |q| = 1 → v q = 1)
    (hne : ∃ p ∈ items, p.1 ≠ 0) : readPoly num (fullText t items) = some (termsOf v items) := by
  induction items with
  | nil => obtain ⟨p, hp, _⟩ := hne; exact absurd hp (by simp)
  | cons p r ih =>
    rw [fullText, termsOf]
    by_cases h0 : p.1 = 0
    · rw [if_pos h0, if_pos h0]
      refine ih (fun p hp => hg p (List.mem_cons_of_mem _ hp)) ?_
      obtain ⟨p', hp, hp'⟩ := hne
      rcases List.mem_cons.1 hp with rfl | hp
      · exact absurd h0 hp'
      · exact ⟨p', hp, hp'⟩
    · rw [if_neg h0, if_neg h0]
      have g := hg p List.mem_cons_self h0
      obtain ⟨k1, k2⟩ := termText_head g (restText t r)
      have hr := read_rest r (fun p hp => hg p (List.mem_cons_of_mem _ hp)) hv (t := t)
      by_cases hneg : p.1 < 0
      · rw [if_pos hneg, if_pos hneg, readPoly, if_pos (by simp)]
        obtain ⟨n, hn⟩ : ∃ n, (['-'] ++ (termText t p ++ restText t r)).length = n + 1 := ⟨_, rfl⟩
        have hn' : (restText t r).length ≤ n := by simp at hn; omega
        rw [hn, List.singleton_append, List.tail_cons, words_term g (restText_spaced r), readTerms, if_pos (Or.inr rfl),
          readTerm_words g (hv _) (afterSpace_head r)]
        simp only
        rw [hr _ hn']
        simp
      · rw [if_neg hneg, if_neg hneg, List.nil_append, readPoly, if_neg k1]
        obtain ⟨n, hn⟩ : ∃ n, (termText t p ++ restText t r).length = n + 1 := ⟨(termText t p ++ restText t r).length - 1, by
          rw [List.length_append]; omega⟩
        have hn' : (restText t r).length ≤ n := by rw [List.length_append] at hn; omega
        rw [hn, words_term g (restText_spaced r), readTerms, if_pos (Or.inl rfl), readTerm_words g (hv _) (afterSpace_head r)]
        simp only
        rw [hr _ hn']
        simp

theorem sumTerms_eq (L : List ℚ) : sumTerms (termsOf v L.reverse.zipIdx.reverse) =
    polyOf (L.map fun q => if q = 0 then 0 else if q < 0 then -v q else v q) := by
  induction L with
  | nil => simp [termsOf, sumTerms, polyOf]
  | cons c L ih =>
    rw [rev_zipIdx_cons, termsOf, List.map_cons, polyOf, List.length_map, ← ih]
    by_cases h0 : c = 0
    · simp [h0]
    · simp only [if_neg h0]
      rw [sumTerms, List.map_cons, List.sum_cons]; rfl

theorem exps_termsOf (L : List ℚ) : ((termsOf v L.reverse.zipIdx.reverse).map Prod.fst).Pairwise (· > ·) ∧
    ∀ x ∈ termsOf v L.reverse.zipIdx.reverse, x.1 < L.length := by
  induction L with
  | nil => simp [termsOf]
  | cons c L ih =>
    rw [rev_zipIdx_cons, termsOf]
    split
    · exact ⟨ih.1, fun x hx => lt_of_lt_of_le (ih.2 x hx) (by simp)⟩
    · constructor
      · rw [List.map_cons, List.pairwise_cons]
        refine ⟨?_, ih.1⟩
        intro k hk
        obtain ⟨x, hx, rfl⟩ := List.mem_map.1 hk
        exact ih.2 x hx
      · intro x hx
        rcases List.mem_cons.1 hx with rfl | hx
        · simp
        · exact lt_of_lt_of_le (ih.2 x hx) (by simp)

theorem mem_termsOf {items : List (ℚ × Nat)} {x : Nat × ℚ} (h : x ∈ termsOf v items) : ∃ p ∈ items, p.1 ≠ 0 ∧ |x.2| = |v p.1| := by
  induction items with
  | nil => simp [termsOf] at h
  | cons p r ih =>
    rw [termsOf] at h
    split at h
    · obtain ⟨p', h1, h2⟩ := ih h
      exact ⟨p', List.mem_cons_of_mem _ h1, h2⟩
    · rename_i h0
      rcases List.mem_cons.1 h with rfl | h
      · refine ⟨p, List.mem_cons_self, h0, ?_⟩
        simp only
        split
        · rw [abs_neg]
        · rfl
      · obtain ⟨p', h1, h2⟩ := ih h
        exact ⟨p', List.mem_cons_of_mem _ h1, h2⟩

/-- the text of a polynomial is read as the polynomial whose coefficients are those that are read from the coefficients -/
theorem to_string_c {L : List ℚ} (ht : ∀ q ∈ L, q ≠ 0 → coeffText approx (ofRat |q|) = pure (t q))
    (hg : ∀ q ∈ L, q ≠ 0 → Good num (t q) (v q)) (hv : ∀ q, |q| = 1 → v q = 1) (h0 : num ['0'] = some 0) :
    ∃ s l, to_string (ofList L) approx = pure s ∧ readPoly num s = some l ∧
      sumTerms l = polyOf (L.map fun q => if q = 0 then 0 else if q < 0 then -v q else v q) ∧ (l.map Prod.fst).Pairwise (· > ·) ∧
      (s = ['0'] ∨ ∀ x ∈ l, ∃ q ∈ L, q ≠ 0 ∧ |x.2| = |v q|) := by
  obtain ⟨items, hi⟩ : ∃ items, items = L.reverse.zipIdx.reverse := ⟨_, rfl⟩
  have hm : ∀ p ∈ items, p.1 ∈ L := by
    intro p hp
    rw [hi, List.mem_reverse] at hp
    have := List.fst_mem_of_mem_zipIdx hp
    simpa using this
  have hl : (ofList L).coeffs.reverse.zipIdx.reverse = items.map fun p => (ofRat p.1, p.2) := by
    rw [ofList, hi]
    simp only
    rw [← List.map_reverse, zipIdx_map', List.map_reverse]
  obtain ⟨l, r1, r2, r3⟩ := textLoop_full items (approx := approx) (t := t) (fun p hp => ht _ (hm p hp)) (fun p hp h => (hg _ (hm p hp) h).ne)
  rw [to_string, hl, r1, pure_bind]
  by_cases hz : ∀ p ∈ items, p.1 = 0
  · have hl0 := r3.2 hz
    subst hl0
    refine ⟨['0'], [(0, 0)], rfl, ?_, ?_, List.pairwise_singleton _ _, .inl rfl⟩
    · simp [readPoly, words, readTerms, readTerm, readPow, h0]
    · rw [← sumTerms_eq, ← hi]
      have : termsOf v items = [] := by
        clear hm hl r1 r2 r3 hi
        induction items with
        | nil => rfl
        | cons p r ih => rw [termsOf, if_pos (hz p List.mem_cons_self)]; exact ih (fun p hp => hz p (List.mem_cons_of_mem _ hp))
      rw [this]
      simp [sumTerms]
  · have hl0 : l.isEmpty = false := by
      have := mt r3.1 hz
      simpa using this
    refine ⟨l.flatten, termsOf v items, ?_, ?_, ?_, ?_, .inr ?_⟩
    · simp [hl0]
    · rw [r2]
      push Not at hz
      exact read_full items (fun p hp => hg _ (hm p hp)) hv hz
    · rw [hi, sumTerms_eq]
    · rw [hi]; exact (exps_termsOf L).1
    · intro x hx
      obtain ⟨p, h1, h2, h3⟩ := mem_termsOf hx
      exact ⟨p.1, hm p h1, h2, h3⟩

/-! ## texts of coefficients -/

theorem text_head {A B : List Char} (hA : ∀ c ∈ A, c.isDigit = true) (hne : A ≠ []) {sep : Char} (hs : sep = '/' ∨ sep = '.')
    (hB : ∀ c ∈ B, c.isDigit = true) {s : List Char} (h : s = A ++ if B = [] then [] else sep :: B) :
    ' ' ∉ s ∧ readPow s = none ∧ s.head? ≠ some '-' ∧ s ≠ [] ∧ (∀ c ∈ s, c.isDigit = true ∨ c = sep) := by
  have hall : ∀ c ∈ s, c.isDigit = true ∨ c = sep := by
    intro c hc
    rw [h, List.mem_append] at hc
    rcases hc with hc | hc
    · exact .inl (hA c hc)
    · split at hc
      · simp at hc
      · rcases List.mem_cons.1 hc with hc | hc
        · exact .inr hc
        · exact .inl (hB c hc)
  obtain ⟨a, A, rfl⟩ := List.exists_cons_of_ne_nil hne
  have ha := hA a List.mem_cons_self
  rw [List.cons_append] at h
  refine ⟨?_, ?_, ?_, ?_, hall⟩
  · intro hc
    rcases hall _ hc with hc | hc
    · exact absurd hc (by decide)
    · rcases hs with rfl | rfl <;> exact absurd hc (by decide)
  · have hx : a ≠ 'x' := by rintro rfl; exact absurd ha (by decide)
    rw [h]
    unfold readPow
    split
    · rename_i e; exact absurd (List.cons.inj e).1 hx
    · rename_i e; exact absurd (List.cons.inj e).1 hx
    · rfl
  · rw [h, List.head?_cons]
    intro e
    rw [Option.some.inj e] at ha
    exact absurd ha (by decide)
  · rw [h]; exact List.cons_ne_nil _ _

theorem span_sep {A : List Char} {sep : Char} (hA : ∀ c ∈ A, c ≠ sep) (s : List Char) :
    (A ++ sep :: s).dropWhile (· ≠ sep) = sep :: s ∧ (A ++ sep :: s).takeWhile (· ≠ sep) = A ∧ A.dropWhile (· ≠ sep) = [] := by
  induction A with
  | nil => simp
  | cons a A ih =>
    obtain ⟨i1, i2, i3⟩ := ih (fun c hc => hA c (List.mem_cons_of_mem _ hc))
    have := hA a List.mem_cons_self
    rw [List.cons_append, List.dropWhile_cons_of_pos (by simpa using this), List.takeWhile_cons_of_pos (by simpa using this),
      List.dropWhile_cons_of_pos (by simpa using this), i1, i2, i3]
    exact ⟨rfl, rfl, rfl⟩

theorem isDigit_toDigits (n : Nat) : ∀ c ∈ Nat.toDigits 10 n, c.isDigit = true := fun _ h => Nat.isDigit_of_mem_toDigits (by norm_num) (by norm_num) h

theorem toDigits_ne (n : Nat) : Nat.toDigits 10 n ≠ [] := by
  intro h
  have := Nat.length_toDigits_pos (b := 10) (n := n)
  rw [h] at this
  simp at this

theorem good_frac (q : ℚ) : Good readFrac (Nat.toDigits 10 q.num.natAbs ++ if q.den = 1 then [] else '/' :: Nat.toDigits 10 q.den) |q| := by
  have hval : |q| = (q.num.natAbs : ℚ) / q.den := by
    conv_lhs => rw [← Rat.num_div_den q]
    rw [abs_div, Nat.abs_cast, Nat.cast_natAbs, Int.cast_abs]
  have key := text_head (isDigit_toDigits q.num.natAbs) (toDigits_ne _) (.inl rfl) (B := if q.den = 1 then [] else Nat.toDigits 10 q.den)
    (by split; · simp
        · exact isDigit_toDigits _) (s := Nat.toDigits 10 q.num.natAbs ++ if q.den = 1 then [] else '/' :: Nat.toDigits 10 q.den) (by
      by_cases hd : q.den = 1
      · simp [hd]
      · simp [hd])
  obtain ⟨k1, k2, k3, k4, k5⟩ := key
  refine ⟨k1, k2, ?_, k3, k4⟩
  rw [readFrac, if_pos ⟨k4, List.all_eq_true.2 fun c hc => by simpa using k5 c hc⟩, hval]
  have hA : ∀ c ∈ Nat.toDigits 10 q.num.natAbs, c ≠ '/' := by
    rintro c hc rfl
    exact absurd (isDigit_toDigits _ _ hc) (by decide)
  obtain ⟨s1, s2, s3⟩ := span_sep hA (Nat.toDigits 10 q.den)
  by_cases hd : q.den = 1
  · simp only [if_pos hd, List.append_nil]
    rw [s3, hd]
    simp [Ratio.decVal_toDigits]
  · simp only [if_neg hd]
    rw [s1, s2]
    simp only [Ratio.decVal_toDigits]

theorem good_fixed (q : ℚ) (d : Nat) : Good readDec (fixedRat False q d) ((⌊q * 10 ^ d⌋₊ : ℚ) / 10 ^ d) := by
  have e3 : ∀ x ∈ (List.range d).map (decimalDigit q), x < 10 := by
    intro x hx
    obtain ⟨i, -, rfl⟩ := List.mem_map.1 hx
    exact Nat.mod_lt _ (by norm_num)
  have e4 : (List.range d).map (fun i => Nat.digitChar (decimalDigit q i)) = ((List.range d).map (decimalDigit q)).map Nat.digitChar := by
    rw [List.map_map]; rfl
  rw [← Ratio.fv_decimals, ← Ratio.fv_strip0]
  have h10 : ∀ x ∈ UBig.strip0 ((List.range d).map (decimalDigit q)), x < 10 := fun x hx => e3 x (UBig.mem_strip0 hx)
  have et : fixedRat False q d = Nat.toDigits 10 ⌊q⌋₊ ++ if (UBig.strip0 ((List.range d).map (decimalDigit q))).map Nat.digitChar = [] then [] else
      '.' :: (UBig.strip0 ((List.range d).map (decimalDigit q))).map Nat.digitChar := by
    rw [fixedRat]
    simp only [e4, UBig.stripZeros_map _ e3, if_false, List.nil_append]
  rw [et]
  generalize UBig.strip0 ((List.range d).map (decimalDigit q)) = D at *
  have hB : ∀ c ∈ D.map Nat.digitChar, c.isDigit = true := by
    intro c hc
    obtain ⟨x, hx, rfl⟩ := List.mem_map.1 hc
    have : ∀ x < 10, (Nat.digitChar x).isDigit = true := by decide
    exact this x (h10 x hx)
  obtain ⟨k1, k2, k3, k4, k5⟩ := text_head (isDigit_toDigits ⌊q⌋₊) (toDigits_ne _) (.inr rfl) hB rfl
  refine ⟨k1, k2, ?_, k3, k4⟩
  rw [readDec, if_pos ⟨k4, List.all_eq_true.2 fun c hc => by simpa using k5 c hc⟩]
  have hA : ∀ c ∈ Nat.toDigits 10 ⌊q⌋₊, c ≠ '.' := by
    rintro c hc rfl
    exact absurd (isDigit_toDigits _ _ hc) (by decide)
  obtain ⟨s1, s2, s3⟩ := span_sep hA (D.map Nat.digitChar)
  have hf := Ratio.decVal_fv D h10
  by_cases hd : D.map Nat.digitChar = []
  · simp only [if_pos hd, List.append_nil]
    rw [s3]
    have : D = [] := List.map_eq_nil_iff.1 hd
    subst this
    simp [Ratio.decVal_toDigits, Ratio.fv]
  · simp only [if_neg hd]
    rw [s1, s2]
    simp only [Ratio.decVal_toDigits]
    rw [← hf, decLen, List.filter_eq_self.2 (by simp)]

end Poly
end Hmath
