import Mathlib.LinearAlgebra.Matrix.NonsingularInverse
import Mathlib.LinearAlgebra.Matrix.Determinant.Basic
import Mathlib.LinearAlgebra.Matrix.Adjugate
import Mathlib.Tactic.Ring
import Mathlib.Tactic.FinCases
import Verif.Proofs.Ratio
import Verif.Spec.Matrix

/-!
# Matrix operations on matrices in canonical form
-/

namespace Hmath

theorem foldlM_range {σ : Type} (S : Nat → σ) (f : σ → Nat → M σ) (n : Nat)
    (h : ∀ i < n, f (S i) i = pure (S (i + 1))) : (List.range n).foldlM f (S 0) = pure (S n) := by
  induction n with
  | zero => rfl
  | succ n ih =>
    rw [List.range_succ, List.foldlM_append, ih (fun i hi => h i (by omega)), pure_bind]
    simp only [List.foldlM_cons, List.foldlM_nil]
    rw [h n (by omega), pure_bind]

theorem mapM_pure' {α β : Type} {f : α → M β} {g : α → β} {l : List α}
    (h : ∀ x ∈ l, f x = pure (g x)) : l.mapM f = pure (l.map g) := by
  induction l with
  | nil => rfl
  | cons x l ih =>
    rw [List.mapM_cons, h x (by simp), pure_bind, ih (fun y hy => h y (by simp [hy])), pure_bind]
    rfl

theorem zipIdx_map_range {α : Type} (F : Nat → α) (n : Nat) :
    ((List.range n).map F).zipIdx = (List.range n).map (fun i => (F i, i)) := by
  apply List.ext_getElem
  · simp
  · intro i h1 h2
    simp

namespace Mat
open Ratio

/-- the `r × c` matrix with entries `F i j` -/
def ofFun (F : Nat → Nat → ℚ) (r c : Nat) : Mat :=
  ⟨(List.range r).map (fun i => (List.range c).map (fun j => ofRat (F i j))), c, r⟩

/-- `F` with entry `(i, j)` replaced -/
def upd (F : Nat → Nat → ℚ) (i j : Nat) (q : ℚ) : Nat → Nat → ℚ :=
  fun a b => if a = i ∧ b = j then q else F a b

variable {F G : Nat → Nat → ℚ} {r c i j : Nat} {q : ℚ}

theorem ofFun_congr (h : ∀ i < r, ∀ j < c, F i j = G i j) : ofFun F r c = ofFun G r c := by
  unfold ofFun
  have : (List.range r).map (fun i => (List.range c).map (fun j => ofRat (F i j)))
      = (List.range r).map (fun i => (List.range c).map (fun j => ofRat (G i j))) := by
    apply List.map_congr_left
    intro i hi
    apply List.map_congr_left
    intro j hj
    rw [h i (List.mem_range.1 hi) j (List.mem_range.1 hj)]
  rw [this]

theorem entry_ofFun (hi : i < r) (hj : j < c) : entry (ofFun F r c) i j = F i j := by
  simp [entry, ofFun, hi, hj, rval_ofRat]

theorem mvalid_ofFun : MValid (ofFun F r c) := by
  refine ⟨by simp [ofFun], ?_, ?_⟩
  · intro l hl
    simp only [ofFun, List.mem_map] at hl
    obtain ⟨i, _, rfl⟩ := hl
    simp [ofFun]
  · intro l hl x hx
    simp only [ofFun, List.mem_map] at hl
    obtain ⟨i, _, rfl⟩ := hl
    obtain ⟨j, _, rfl⟩ := List.mem_map.1 hx
    exact rvalid_ofRat _

theorem eq_ofFun {A : Mat} (h : MValid A) : A = ofFun (entry A) A.rows A.cols := by
  obtain ⟨d, cc, rr⟩ := A
  obtain ⟨h1, h2, h3⟩ := h
  simp only at h1 h2 h3
  simp only [ofFun, Mat.mk.injEq, and_true]
  apply List.ext_getElem
  · simp [h1]
  · intro i hi hi'
    have hlen := h2 _ (List.getElem_mem hi)
    apply List.ext_getElem
    · simp [hlen]
    · intro j hj hj'
      have hv := h3 _ (List.getElem_mem hi) _ (List.getElem_mem hj)
      simp only [List.getElem_map, List.getElem_range, entry, List.getD_eq_getElem?_getD,
        List.getElem?_eq_getElem hi, Option.getD_some, List.getElem?_eq_getElem hj]
      exact hv.eq_ofRat

/-- `F` as a mathematical matrix -/
def mat (F : Nat → Nat → ℚ) (r c : Nat) : Matrix (Fin r) (Fin c) ℚ := fun i j => F i j

theorem isMat_ofFun : IsMat (ofFun F r c) (mat F r c) :=
  ⟨mvalid_ofFun, rfl, rfl, fun i j => entry_ofFun i.2 j.2⟩

theorem isMat_eq {A : Mat} {B : Matrix (Fin r) (Fin c) ℚ} (h : IsMat A B) :
    A = ofFun (entry A) r c ∧ B = mat (entry A) r c := by
  constructor
  · have := eq_ofFun h.valid
    rw [h.rows, h.cols] at this
    exact this
  · ext i j; exact (h.val i j).symm

/-- a representable form of any matrix -/
def ext0 (B : Matrix (Fin r) (Fin c) ℚ) : Nat → Nat → ℚ :=
  fun i j => if h : i < r ∧ j < c then B ⟨i, h.1⟩ ⟨j, h.2⟩ else 0

theorem mat_ext0 (B : Matrix (Fin r) (Fin c) ℚ) : mat (ext0 B) r c = B := by
  ext i j; simp [mat, ext0]

theorem isMat_unique {A A' : Mat} {B : Matrix (Fin r) (Fin c) ℚ} (h : IsMat A B) (h' : IsMat A' B) :
    A = A' := by
  rw [(isMat_eq h).1, (isMat_eq h').1]
  refine ofFun_congr fun i hi j hj => ?_
  exact (h.val ⟨i, hi⟩ ⟨j, hj⟩).trans (h'.val ⟨i, hi⟩ ⟨j, hj⟩).symm

theorem get_ofFun (hi : i < r) (hj : j < c) : get (ofFun F r c) i j = pure (ofRat (F i j)) := by
  rw [get, idx_some (x := (List.range c).map (fun j => ofRat (F i j))) (by simp [ofFun, hi]),
    pure_bind]
  exact idx_some (by simp [hj])

theorem set_ofFun (hi : i < r) (hj : j < c) :
    set (ofFun F r c) i j (ofRat q) = pure (ofFun (upd F i j q) r c) := by
  rw [set, idx_some (x := (List.range c).map (fun j => ofRat (F i j))) (by simp [ofFun, hi]),
    pure_bind, idx_some (x := ofRat (F i j)) (by simp [hj]), pure_bind]
  refine congrArg pure ?_
  simp only [ofFun, Mat.mk.injEq, and_true]
  apply List.ext_getElem
  · simp
  · intro a h1 h2
    rw [List.getElem_set]
    by_cases hai : i = a
    · subst hai
      rw [if_pos rfl]
      apply List.ext_getElem
      · simp
      · intro b h3 h4
        rw [List.getElem_set]
        by_cases hbj : j = b
        · subst hbj; simp [upd]
        · simp [upd, hbj, Ne.symm hbj]
    · rw [if_neg hai]
      simp [upd, Ne.symm hai]

theorem modify_ofFun {f : Ratio → M Ratio} (hi : i < r) (hj : j < c)
    (h : f (ofRat (F i j)) = pure (ofRat q)) :
    modify (ofFun F r c) i j f = pure (ofFun (upd F i j q) r c) := by
  rw [modify, get_ofFun hi hj, pure_bind, h, pure_bind, set_ofFun hi hj]

/-- a loop over all cells that sets cell `(i, j)` to `G i j` -/
theorem cells_loop {b : Nat → Nat → Mat → M Mat}
    (h : ∀ i < r, ∀ j < c, ∀ F' : Nat → Nat → ℚ, F' i j = F i j →
      b i j (ofFun F' r c) = pure (ofFun (upd F' i j (G i j)) r c)) :
    (List.range r).foldlM (fun R i => (List.range c).foldlM (fun R j => b i j R) R) (ofFun F r c)
      = pure (ofFun G r c) := by
  have key := foldlM_range (fun i => ofFun (fun a b => if a < i then G a b else F a b) r c)
    (fun R i => (List.range c).foldlM (fun R j => b i j R) R) r ?_
  · simp only [Nat.not_lt_zero, if_false] at key
    rw [key]
    refine congrArg pure (ofFun_congr fun i hi j _ => ?_)
    rw [if_pos hi]
  · intro i hi
    have key2 := foldlM_range (fun j => ofFun (fun a b => if a < i ∨ (a = i ∧ b < j) then G a b else F a b) r c)
      (fun R j => b i j R) c ?_
    · simp only [Nat.not_lt_zero, and_false, or_false] at key2
      rw [key2]
      refine congrArg pure (ofFun_congr fun a _ b hb => ?_)
      congr 1
      exact propext ⟨by omega, by omega⟩
    · intro j hj
      rw [h i hi j hj _ (by simp)]
      refine congrArg pure (ofFun_congr fun a _ b hb => ?_)
      simp only [upd]
      by_cases h1 : a = i ∧ b = j
      · rw [if_pos h1, if_pos (by omega), h1.1, h1.2]
      · rw [if_neg h1]
        congr 1
        exact propext ⟨by omega, by omega⟩

theorem cells_modify {f : Nat → Nat → Ratio → M Ratio}
    (h : ∀ i < r, ∀ j < c, f i j (ofRat (F i j)) = pure (ofRat (G i j))) :
    (List.range r).foldlM (fun R i => (List.range c).foldlM (fun R j => modify R i j (f i j)) R)
      (ofFun F r c) = pure (ofFun G r c) :=
  cells_loop (b := fun i j R => modify R i j (f i j)) fun i hi j hj F' hF =>
    modify_ofFun hi hj (by rw [hF]; exact h i hi j hj)

/-- repeated update of one cell -/
theorem cell_loop {f : Nat → Ratio → M Ratio} (n : Nat) (S : Nat → ℚ) (hi : i < r) (hj : j < c)
    (h0 : S 0 = F i j) (h : ∀ k < n, f k (ofRat (S k)) = pure (ofRat (S (k + 1)))) :
    (List.range n).foldlM (fun R k => modify R i j (f k)) (ofFun F r c)
      = pure (ofFun (upd F i j (S n)) r c) := by
  have key := foldlM_range (fun k => ofFun (upd F i j (S k)) r c)
    (fun R k => modify R i j (f k)) n ?_
  · rw [← key]
    congr 1
    refine ofFun_congr fun a _ b _ => ?_
    simp only [upd]
    split
    · rename_i h1; rw [h1.1, h1.2, h0]
    · rfl
  · intro k hk
    rw [modify_ofFun (q := S (k + 1)) hi hj (by simp [upd, h k hk])]
    refine congrArg pure (ofFun_congr fun a _ b _ => ?_)
    simp only [upd]
    split <;> rfl

/-! ## basic operations -/

theorem zeros_c : zeros c r = pure (ofFun (fun _ _ => 0) r c) := by
  rw [zeros, from_i32_c (by unfold IsI32; omega) (by omega), pure_bind]
  refine congrArg pure ?_
  simp [ofFun, List.map_const']

theorem identity_c (n : Nat) :
    identity n = pure (ofFun (fun i j => if i = j then 1 else 0) n n) := by
  rw [identity, zeros_c, pure_bind]
  have key := foldlM_range (fun k => ofFun (fun a b => if a = b ∧ a < k then 1 else 0) n n)
    (fun A i => A.set i i Ratio.one) n ?_
  · simp only [Nat.not_lt_zero, and_false, if_false] at key
    rw [key]
    refine congrArg pure (ofFun_congr fun a ha b hb => ?_)
    simp [ha]
  · intro k hk
    rw [one_c, set_ofFun hk hk]
    refine congrArg pure (ofFun_congr fun a _ b _ => ?_)
    simp only [upd]
    by_cases h1 : a = k ∧ b = k
    · rw [if_pos h1, if_pos (by omega)]
    · rw [if_neg h1]
      congr 1
      exact propext ⟨by omega, by omega⟩

theorem generate_c {f : Nat → Nat → M Ratio}
    (h : ∀ i < r, ∀ j < c, f i j = pure (ofRat (F i j))) :
    generate c r f = pure (ofFun F r c) := by
  rw [generate, mapM_pure' (g := fun i => (List.range c).map (fun j => ofRat (F i j)))]
  · rfl
  · intro i hi
    exact mapM_pure' fun j hj => h i (List.mem_range.1 hi) j (List.mem_range.1 hj)

theorem add_c : add (ofFun F r c) (ofFun G r c) = pure (.ok (ofFun (fun i j => F i j + G i j) r c)) := by
  rw [add, if_neg (by simp [ofFun])]
  have : (ofFun F r c).data.zipIdx
      = (List.range r).map (fun i => ((List.range c).map (fun j => ofRat (F i j)), i)) :=
    zipIdx_map_range _ _
  rw [this, List.mapM_map, mapM_pure' (g := fun i => (List.range c).map (fun j => ofRat (F i j + G i j)))]
  · rfl
  · intro i hi
    simp only [Function.comp]
    rw [zipIdx_map_range, List.mapM_map]
    refine mapM_pure' fun j hj => ?_
    show (do let y ← get (ofFun G r c) i j; (ofRat (F i j)).add y) = _
    rw [get_ofFun (List.mem_range.1 hi) (List.mem_range.1 hj), pure_bind, Ratio.add_c]

theorem add_mut_c :
    add_mut (ofFun F r c) (ofFun G r c) = pure (.ok (ofFun (fun i j => F i j + G i j) r c)) := by
  rw [add_mut, if_neg (by simp [ofFun])]
  show (((List.range r).foldlM (fun R i => (List.range c).foldlM (fun R j =>
        R.modify i j (fun x => do let y ← (ofFun G r c).get i j; x.add_mut y)) R) (ofFun F r c)) >>=
      fun R => pure (Except.ok R)) = _
  rw [cells_modify (f := fun i j x => do let y ← (ofFun G r c).get i j; x.add_mut y)
    (G := fun i j => F i j + G i j), pure_bind]
  intro i hi j hj
  rw [get_ofFun hi hj, pure_bind, Ratio.add_mut_c]

theorem mul_k_c (k : ℚ) : mul_k (ofFun F r c) (ofRat k) = pure (ofFun (fun i j => F i j * k) r c) := by
  rw [mul_k]
  show (((List.range r).map (fun i => (List.range c).map (fun j => ofRat (F i j)))).mapM _ >>= _) = _
  rw [List.mapM_map, mapM_pure' (g := fun i => (List.range c).map (fun j => ofRat (F i j * k)))]
  · rfl
  · intro i _
    simp only [Function.comp]
    rw [List.mapM_map]
    exact mapM_pure' fun j _ => Ratio.mul_c _ _

theorem mul_k_mut_c (k : ℚ) :
    mul_k_mut (ofFun F r c) (ofRat k) = pure (ofFun (fun i j => F i j * k) r c) :=
  cells_modify (f := fun _ _ x => x.mul_mut (ofRat k)) fun _ _ _ _ => Ratio.mul_mut_c _ _

theorem mul_c {m : Nat} : mul (ofFun F r m) (ofFun G m c)
    = pure (.ok (ofFun (fun i j => ∑ k ∈ Finset.range m, F i k * G k j) r c)) := by
  rw [mul, if_neg (by simp [ofFun])]
  show (zeros c r >>= fun Z => (List.range r).foldlM (fun R i => (List.range c).foldlM (fun R j =>
        (List.range m).foldlM (fun R k => R.modify i j (fun x => do
            let a ← (ofFun F r m).get i k
            let b ← (ofFun G m c).get k j
            let t ← a.mul b
            x.add_mut t)) R) R) Z >>= fun R => pure (Except.ok R)) = _
  rw [zeros_c, pure_bind, cells_loop (b := fun i j R => (List.range m).foldlM (fun R k => R.modify i j (fun x => do
            let a ← (ofFun F r m).get i k
            let b ← (ofFun G m c).get k j
            let t ← a.mul b
            x.add_mut t)) R) (G := fun i j => ∑ k ∈ Finset.range m, F i k * G k j), pure_bind]
  intro i hi j hj F' hF
  refine cell_loop (f := fun k x => do
            let a ← (ofFun F r m).get i k
            let b ← (ofFun G m c).get k j
            let t ← a.mul b
            x.add_mut t) m (fun n => ∑ k ∈ Finset.range n, F i k * G k j) hi hj (by simp [hF]) ?_
  intro k hk
  rw [get_ofFun hi hk, pure_bind, get_ofFun hk hj, pure_bind, Ratio.mul_c, pure_bind,
    Ratio.add_mut_c, Finset.sum_range_succ]

theorem transpose_c : transpose (ofFun F r c) = pure (ofFun (fun i j => F j i) c r) := by
  rw [transpose]
  show ((List.range c).mapM (fun i => (List.range r).mapM (fun j => (ofFun F r c).get j i)) >>= _) = _
  rw [mapM_pure' (g := fun i => (List.range r).map (fun j => ofRat (F j i)))]
  · rfl
  · intro i hi
    exact mapM_pure' fun j hj => get_ofFun (List.mem_range.1 hj) (List.mem_range.1 hi)

/-! ## determinants -/

theorem hack2_c (a b c d : ℚ) :
    hack2 (ofRat a) (ofRat b) (ofRat c) (ofRat d) = pure (ofRat (a * d - b * c)) := by
  rw [hack2, Ratio.mul_c, pure_bind, Ratio.mul_c, pure_bind, Ratio.sub_c]

theorem hack2n_c (a b c d : ℚ) :
    hack2n (ofRat a) (ofRat b) (ofRat c) (ofRat d) = pure (ofRat (b * c - a * d)) := by
  rw [hack2n, Ratio.mul_c, pure_bind, Ratio.mul_c, pure_bind, Ratio.sub_c]

theorem mul3_c (a b c : ℚ) : mul3 (ofRat a) (ofRat b) (ofRat c) = pure (ofRat (a * (b * c))) := by
  rw [mul3, Ratio.mul_c, pure_bind, Ratio.mul_c]

theorem hack3_c (a b c d e f g h i : ℚ) :
    hack3 (ofRat a) (ofRat b) (ofRat c) (ofRat d) (ofRat e) (ofRat f) (ofRat g) (ofRat h) (ofRat i)
      = pure (ofRat (a * (e * i) + b * (f * g) + c * (d * h) - c * (e * g) - b * (d * i)
          - a * (f * h))) := by
  simp only [hack3, mul3_c, pure_bind, Ratio.add_c, Ratio.sub_c]

theorem hack3n_c (a b c d e f g h i : ℚ) :
    hack3n (ofRat a) (ofRat b) (ofRat c) (ofRat d) (ofRat e) (ofRat f) (ofRat g) (ofRat h) (ofRat i)
      = pure (ofRat (c * (e * g) + b * (d * i) + a * (f * h) - a * (e * i) - b * (f * g)
          - c * (d * h))) := by
  simp only [hack3n, mul3_c, pure_bind, Ratio.add_c, Ratio.sub_c]

theorem det2_c : determinant_2_by_2 (ofFun F 2 2) = pure (ofRat (mat F 2 2).det) := by
  rw [determinant_2_by_2]
  simp (discharger := decide) only [get_ofFun, pure_bind, hack2_c]
  rw [Matrix.det_fin_two]
  rfl

theorem det3_c : determinant_3_by_3 (ofFun F 3 3) = pure (ofRat (mat F 3 3).det) := by
  rw [determinant_3_by_3]
  simp (discharger := decide) only [get_ofFun, pure_bind, hack3_c]
  refine congrArg (fun q => pure (ofRat q)) ?_
  rw [Matrix.det_fin_three]
  simp only [mat]
  norm_num
  ring

theorem det4_c : determinant_4_by_4 (ofFun F 4 4) = pure (ofRat (mat F 4 4).det) := by
  rw [determinant_4_by_4]
  simp (discharger := decide) only [get_ofFun, pure_bind, hack3_c, hack3n_c, Ratio.mul_mut_c,
    Ratio.add_mut_c]
  refine congrArg (fun q => pure (ofRat q)) ?_
  rw [Matrix.det_succ_row_zero]
  simp only [Fin.sum_univ_four, Matrix.det_fin_three, Matrix.submatrix_apply, mat]
  simp [Fin.succAbove, Fin.lt_def]
  ring

/-- index `k` of the matrix without line `i` -/
def skip (i k : Nat) : Nat := if k < i then k else k + 1

theorem skip_lt {n k : Nat} (h : k < n - 1) : skip i k < n := by unfold skip; split <;> omega

theorem skip_list {n : Nat} (hi : i < n) :
    List.range i ++ List.range' (i + 1) (n - (i + 1)) = (List.range (n - 1)).map (skip i) := by
  apply List.ext_getElem
  · simp; omega
  · intro k h1 h2
    simp only [List.length_map, List.length_range] at h2
    rw [List.getElem_map, List.getElem_range, skip]
    split
    · rename_i h
      rw [List.getElem_append_left (by simpa using h)]
      simp
    · rename_i h
      rw [List.getElem_append_right (by simpa using h)]
      simp
      omega

theorem subMat_c {n : Nat} (hi : i < n) (hj : j < n) :
    subMat (ofFun F n n) i j
      = pure (ofFun (fun a b => F (skip i a) (skip j b)) (n - 1) (n - 1)) := by
  rw [subMat]
  show (uSub n 1 >>= fun r => uSub n 1 >>= fun c => zeros r c >>= fun Z => _) = _
  rw [uSub_eq (by omega), pure_bind, pure_bind, zeros_c, pure_bind]
  show ((List.range i ++ List.range' (i + 1) (n - (i + 1))).zipIdx.foldlM (fun R p =>
      (List.range j ++ List.range' (j + 1) (n - (j + 1))).zipIdx.foldlM (fun (R : Mat) q => do
      let x ← (ofFun F n n).get p.1 q.1
      R.set p.2 q.2 x) R) (ofFun (fun _ _ => 0) (n - 1) (n - 1))) = _
  rw [skip_list hi, skip_list hj, zipIdx_map_range, zipIdx_map_range, List.foldlM_map]
  simp only [List.foldlM_map]
  refine cells_loop (b := fun a b R => do
      let x ← (ofFun F n n).get (skip i a) (skip j b)
      R.set a b x) ?_
  intro a ha b hb F' _
  rw [get_ofFun (skip_lt ha) (skip_lt hb), pure_bind, set_ofFun ha hb]

theorem skip_succAbove {n : Nat} (i : Fin (n + 1)) (k : Fin n) :
    ((i.succAbove k : Fin (n + 1)) : Nat) = skip i k := by
  unfold skip Fin.succAbove
  simp only [Fin.lt_def, Fin.val_castSucc]
  split <;> simp

theorem mat_skip {n : Nat} (i j : Fin (n + 1)) :
    mat (fun a b => F (skip i a) (skip j b)) n n
      = (mat F (n + 1) (n + 1)).submatrix i.succAbove j.succAbove := by
  ext a b
  simp only [mat, Matrix.submatrix_apply, skip_succAbove]

theorem cofactor_of {n : Nat}
    (ih : ∀ G, determinant (ofFun G n n) = pure (.ok (ofRat (mat G n n).det)))
    (i j : Fin (n + 1)) :
    cofactor (ofFun F (n + 1) (n + 1)) i j = pure (ofRat ((-1) ^ (i + j : Nat) *
      ((mat F (n + 1) (n + 1)).submatrix i.succAbove j.succAbove).det)) := by
  rw [cofactor, minor, subMat_c i.2 j.2, pure_bind, Nat.add_sub_cancel, ih, pure_bind, unwrapR_ok,
    pure_bind, mat_skip]
  by_cases h : ((i : Nat) + j) % 2 = 1
  · rw [if_pos h, negate_mut_c, Odd.neg_one_pow (Nat.odd_iff.2 h)]
    simp
  · rw [if_neg h, Even.neg_one_pow (Nat.even_iff.2 (by omega)), one_mul]

theorem determinant_c (n : Nat) (hn : 1 ≤ n) :
    ∀ F, determinant (ofFun F n n) = pure (.ok (ofRat (mat F n n).det)) := by
  induction n with
  | zero => omega
  | succ n ih =>
    intro F
    rw [determinant]
    have hsq : (ofFun F (n + 1) (n + 1)).is_square = true := by simp [is_square, ofFun]
    have hc : (ofFun F (n + 1) (n + 1)).cols = n + 1 := rfl
    rw [hsq, hc, Bool.not_true, if_neg (by simp)]
    by_cases h5 : n + 1 < 5
    · rw [if_pos h5]
      by_cases h3 : n + 1 < 3
      · rw [if_pos h3, if_neg (by omega)]
        by_cases h1 : n + 1 = 1
        · rw [if_pos h1, get_ofFun (by omega) (by omega), pure_bind]
          obtain rfl : n = 0 := by omega
          rw [Matrix.det_fin_one]; rfl
        · rw [if_neg h1]
          obtain rfl : n = 1 := by omega
          rw [det2_c, pure_bind]
      · rw [if_neg h3]
        by_cases h4 : n + 1 = 3
        · rw [if_pos h4]
          obtain rfl : n = 2 := by omega
          rw [det3_c, pure_bind]
        · rw [if_neg h4]
          obtain rfl : n = 3 := by omega
          rw [det4_c, pure_bind]
    · rw [if_neg h5]
      have ih' := ih (by omega)
      have key := foldlM_range (fun k => ofRat (∑ j ∈ Finset.range k,
          if h : j < n + 1 then (-1) ^ j * F 0 j *
            ((mat F (n + 1) (n + 1)).submatrix Fin.succ (Fin.succAbove ⟨j, h⟩)).det else 0))
        (fun acc j => do
          let x ← (ofFun F (n + 1) (n + 1)).get 0 j
          let c ← cofactor (ofFun F (n + 1) (n + 1)) 0 j
          let t ← x.mul c
          acc.add_mut t) (n + 1) ?_
      · simp only [Finset.range_zero, Finset.sum_empty] at key
        rw [zero_c, key, pure_bind]
        refine congrArg (fun q => pure (Except.ok (ofRat q))) ?_
        rw [Matrix.det_succ_row_zero, Finset.sum_range]
        refine Finset.sum_congr rfl fun j _ => ?_
        rw [dif_pos j.2]
        rfl
      · intro j hj
        have hcof := cofactor_of (F := F) ih' (0 : Fin (n + 1)) ⟨j, hj⟩
        simp only [Fin.val_zero] at hcof
        rw [get_ofFun (by omega) hj, pure_bind, hcof, pure_bind, Ratio.mul_c, pure_bind, Ratio.add_mut_c,
          Finset.sum_range_succ, dif_pos hj]
        refine congrArg (fun q => pure (ofRat q)) ?_
        congr 1
        rw [Nat.zero_add, Fin.succAbove_zero]
        ring

theorem determinant_empty : determinant (ofFun F 0 0) = pure (.error .emptyMatrix) := by
  rw [determinant]; rfl

theorem determinant_nonsquare (h : r ≠ c) :
    determinant (ofFun F r c) = pure (.error (.notSquare c r)) := by
  rw [determinant]
  have : (ofFun F r c).is_square = false := by simp [is_square, ofFun, Ne.symm h]
  rw [this]; rfl

theorem cofactor_c {n : Nat} (hn : 1 ≤ n) (i j : Fin (n + 1)) :
    cofactor (ofFun F (n + 1) (n + 1)) i j = pure (ofRat ((-1) ^ (i + j : Nat) *
      ((mat F (n + 1) (n + 1)).submatrix i.succAbove j.succAbove).det)) :=
  cofactor_of (determinant_c n hn) i j

/-! ## inverse -/

theorem adj2_c : adjugate_2_by_2 (ofFun F 2 2)
    = pure (ofFun (ext0 (mat F 2 2).adjugate) 2 2) := by
  rw [adjugate_2_by_2]
  simp (discharger := decide) only [get_ofFun, pure_bind, negate_c]
  rw [Matrix.adjugate_fin_two]
  rfl

theorem adj3_c : adjugate_3_by_3 (ofFun F 3 3)
    = pure (ofFun (ext0 (mat F 3 3).adjugate) 3 3) := by
  rw [adjugate_3_by_3]
  simp (discharger := decide) only [get_ofFun, pure_bind, hack2_c, hack2n_c]
  have h : (mat F 3 3).adjugate = !![F 1 1 * F 2 2 - F 1 2 * F 2 1,
      F 0 2 * F 2 1 - F 0 1 * F 2 2, F 0 1 * F 1 2 - F 0 2 * F 1 1;
      F 1 2 * F 2 0 - F 1 0 * F 2 2, F 0 0 * F 2 2 - F 0 2 * F 2 0,
      F 0 2 * F 1 0 - F 0 0 * F 1 2;
      F 1 0 * F 2 1 - F 1 1 * F 2 0, F 0 1 * F 2 0 - F 0 0 * F 2 1,
      F 0 0 * F 1 1 - F 0 1 * F 1 0] := by
    ext i j
    rw [Matrix.adjugate_fin_succ_eq_det_submatrix, Matrix.det_fin_two]
    fin_cases i <;> fin_cases j <;> simp [mat, Fin.succAbove, Fin.lt_def] <;> ring
  rw [h]
  rfl

theorem adj4_c : adjugate_4_by_4 (ofFun F 4 4)
    = pure (ofFun (ext0 (mat F 4 4).adjugate) 4 4) := by
  rw [adjugate_4_by_4]
  simp (discharger := decide) only [get_ofFun, pure_bind, hack3_c, hack3n_c]
  refine congrArg pure ?_
  rw [from_raw, ofFun]
  simp only [Mat.mk.injEq, and_true]
  have hr : List.range 4 = [0, 1, 2, 3] := rfl
  have e : ∀ i j, ∀ hi : i < 4, ∀ hj : j < 4, ext0 (mat F 4 4).adjugate i j =
      (-1) ^ (j + i) * (mat (fun a b => F (skip j a) (skip i b)) 3 3).det := by
    intro i j hi hj
    rw [ext0, dif_pos ⟨hi, hj⟩, Matrix.adjugate_fin_succ_eq_det_submatrix,
      mat_skip (n := 3) ⟨j, hj⟩ ⟨i, hi⟩]
  simp only [Matrix.det_fin_three, mat] at e
  simp (discharger := decide) only [hr, List.map_cons, List.map_nil, e]
  simp [skip]
  refine ⟨⟨?_, ?_, ?_, ?_⟩, ⟨?_, ?_, ?_, ?_⟩, ⟨?_, ?_, ?_, ?_⟩, ⟨?_, ?_, ?_, ?_⟩⟩ <;>
    refine congrArg ofRat ?_ <;> ring

theorem adjugate_c {n : Nat} (hn : 2 ≤ n) :
    adjugate (ofFun F n n) = pure (ofFun (ext0 (mat F n n).adjugate) n n) := by
  rw [adjugate]
  have hc : (ofFun F n n).cols = n := rfl
  have hr : (ofFun F n n).rows = n := rfl
  rw [hc, hr]
  by_cases h5 : n < 5
  · rw [if_pos h5, if_neg (by omega)]
    by_cases h2 : n = 2
    · subst h2; rw [if_pos rfl, adj2_c]
    · rw [if_neg h2]
      by_cases h3 : n = 3
      · subst h3; rw [if_pos rfl, adj3_c]
      · rw [if_neg h3]
        obtain rfl : n = 4 := by omega
        exact adj4_c
  · rw [if_neg h5]
    refine generate_c fun i hi j hj => ?_
    obtain ⟨m, rfl⟩ : ∃ m, n = m + 1 := ⟨n - 1, by omega⟩
    have := cofactor_c (F := F) (n := m) (by omega) ⟨j, hj⟩ ⟨i, hi⟩
    simp only [] at this
    rw [this, ext0, dif_pos ⟨hi, hj⟩, Matrix.adjugate_fin_succ_eq_det_submatrix]

theorem inverse_c {n : Nat} (hn : 2 ≤ n) (hd : (mat F n n).det ≠ 0) :
    inverse (ofFun F n n) = pure (.ok (ofFun (ext0 (mat F n n)⁻¹) n n)) := by
  rw [inverse, determinant_c n (by omega), pure_bind]
  simp only []
  rw [is_zero_c, decide_eq_false hd, if_neg (by simp), adjugate_c hn, pure_bind, reci_c hd,
    pure_bind, mul_k_mut_c, pure_bind]
  refine congrArg (fun A => pure (Except.ok A)) (ofFun_congr fun i hi j hj => ?_)
  rw [Matrix.inv_def, Ring.inverse_eq_inv']
  simp only [ext0, dif_pos (And.intro hi hj), Matrix.smul_apply, smul_eq_mul]
  ring

theorem inverse_zero {n : Nat} (hn : 1 ≤ n) (hd : (mat F n n).det = 0) :
    inverse (ofFun F n n) = pure (.error .zeroDeterminant) := by
  rw [inverse, determinant_c n hn, pure_bind]
  simp only []
  rw [is_zero_c, decide_eq_true hd, if_pos rfl]

theorem inverse_one (h : F 0 0 ≠ 0) :
    inverse (ofFun F 1 1) = pure (.ok (ofFun (fun _ _ => 1) 1 1)) := by
  have hd : (mat F 1 1).det = F 0 0 := by rw [Matrix.det_fin_one]; rfl
  rw [inverse, determinant_c 1 (by omega), pure_bind, hd]
  simp only []
  rw [is_zero_c, decide_eq_false h, if_neg (by simp)]
  show (pure (ofFun F 1 1) >>= fun R => _) = _
  rw [pure_bind, reci_c h, pure_bind, mul_k_mut_c, pure_bind]
  refine congrArg (fun A => pure (Except.ok A)) (ofFun_congr fun i hi j hj => ?_)
  obtain rfl : i = 0 := by omega
  obtain rfl : j = 0 := by omega
  exact mul_inv_cancel₀ h

end Mat
end Hmath
