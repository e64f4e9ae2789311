import Mathlib.Analysis.Matrix.PosDef
import Mathlib.Algebra.Order.Star.Real
import Mathlib.Analysis.Real.Sqrt
import Mathlib.Tactic.Linarith
import Mathlib.Tactic.FieldSimp
import Mathlib.Tactic.FinCases
import Mathlib.Tactic.NormNum
import Verif.Model.Smooth

/-!
# Smoothing keeps constants, bounds and positive covariances
-/

namespace Verif.Smooth
open Matrix

variable {F : Type} [Field F]

/-- The matrix of the smoothing. -/
def weights (win : Nat → F) (start len N : Nat) : Matrix (Fin N) (Fin N) F := Matrix.of fun n k => tap win start len n k / conv win start len (fun _ => 1 : Fin N → F) n

theorem smooth_eq (win : Nat → F) (start len : Nat) {N : Nat} (data : Fin N → F) : smooth win start len data = weights win start len N *ᵥ data := by
  funext n
  unfold smooth conv
  simp only [Matrix.mulVec, dotProduct, weights, Matrix.of_apply, conv]
  rw [Finset.sum_div]
  apply Finset.sum_congr rfl
  intro k _
  ring

theorem weights_sum (win : Nat → F) (start len : Nat) {N : Nat} (n : Fin N) (h : conv win start len (fun _ => 1 : Fin N → F) n ≠ 0) : ∑ k, weights win start len N n k = 1 := by
  simp only [weights, Matrix.of_apply]
  rw [← Finset.sum_div]
  have : (∑ k : Fin N, tap win start len n k) = conv win start len (fun _ => 1 : Fin N → F) n := by simp [conv]
  rw [this, div_self h]

/-- A constant stays the same, at the ends too. -/
theorem smooth_const (win : Nat → F) (start len : Nat) {N : Nat} (c : F) (n : Fin N) (h : conv win start len (fun _ => 1 : Fin N → F) n ≠ 0) :
    smooth win start len (fun _ => c) n = c := by
  rw [smooth_eq]
  simp only [Matrix.mulVec, dotProduct]
  rw [← Finset.sum_mul, weights_sum win start len n h, one_mul]

section order
variable [LinearOrder F] [IsStrictOrderedRing F]

/-- Smoothed values are between the least and the largest value. -/
theorem smooth_between (win : Nat → F) (start len : Nat) {N : Nat} (data : Fin N → F) (lo hi : F) (hw : ∀ k, 0 ≤ win k) (hd : ∀ k, lo ≤ data k ∧ data k ≤ hi) (n : Fin N)
    (h : conv win start len (fun _ => 1 : Fin N → F) n ≠ 0) : lo ≤ smooth win start len data n ∧ smooth win start len data n ≤ hi := by
  have ht : ∀ k, 0 ≤ tap win start len n k := by
    intro k
    unfold tap
    split_ifs
    · exact hw _
    · exact le_refl _
  have hc : 0 ≤ conv win start len (fun _ => 1 : Fin N → F) n := Finset.sum_nonneg fun k _ => mul_nonneg zero_le_one (ht k)
  have hn : ∀ k, 0 ≤ weights win start len N n k := fun k => div_nonneg (ht k) hc
  have hs := weights_sum win start len n h
  rw [smooth_eq]
  simp only [Matrix.mulVec, dotProduct]
  constructor
  · calc lo = (∑ k, weights win start len N n k) * lo := by rw [hs, one_mul]
      _ = ∑ k, weights win start len N n k * lo := Finset.sum_mul _ _ _
      _ ≤ _ := Finset.sum_le_sum fun k _ => mul_le_mul_of_nonneg_left (hd k).1 (hn k)
  · calc _ ≤ ∑ k, weights win start len N n k * hi := Finset.sum_le_sum fun k _ => mul_le_mul_of_nonneg_left (hd k).2 (hn k)
      _ = (∑ k, weights win start len N n k) * hi := (Finset.sum_mul _ _ _).symm
      _ = hi := by rw [hs, one_mul]

/-- The sum divided by is positive for a positive window that reaches every sample. -/
theorem conv_one_pos (win : Nat → F) (start len : Nat) {N : Nat} (n : Fin N) (hw : ∀ k, 0 < win k) (hs : start < len) : 0 < conv win start len (fun _ => 1 : Fin N → F) n := by
  unfold conv
  apply Finset.sum_pos'
  · intro k _
    rw [one_mul]
    unfold tap
    split_ifs
    · exact (hw _).le
    · exact le_refl _
  · refine ⟨n, Finset.mem_univ _, ?_⟩
    rw [one_mul]
    unfold tap
    rw [if_pos (by omega)]
    exact hw _

example : conv (fun _ => (1 : ℚ)) 1 3 (fun _ : Fin 4 => 1) 0 = 2 := by decide +kernel

end order

theorem rows_fold (win : Nat → F) (start len : Nat) {N : Nat} (is : List (Fin N)) (cov M : Matrix (Fin N) (Fin N) F) (a b : Fin N) :
    (is.foldl (fun M i => Matrix.of fun a b => if a = i then smooth win start len (fun k => cov i k) b else M a b) M) a b =
      if a ∈ is then smooth win start len (fun k => cov a k) b else M a b := by
  induction is generalizing M with
  | nil => simp
  | cons i is ih =>
    rw [List.foldl_cons, ih]
    by_cases h : a ∈ is
    · simp [h]
    · by_cases h2 : a = i
      · subst h2; simp [h]
      · simp [h, h2]

theorem cols_fold (win : Nat → F) (start len : Nat) {N : Nat} (is : List (Fin N)) (cov M : Matrix (Fin N) (Fin N) F) (a b : Fin N) :
    (is.foldl (fun M i => Matrix.of fun a b => if b = i then smooth win start len (fun k => cov k i) a else M a b) M) a b =
      if b ∈ is then smooth win start len (fun k => cov k b) a else M a b := by
  induction is generalizing M with
  | nil => simp
  | cons i is ih =>
    rw [List.foldl_cons, ih]
    by_cases h : b ∈ is
    · simp [h]
    · by_cases h2 : b = i
      · subst h2; simp [h]
      · simp [h, h2]

/-- The smoothed covariance is the matrix of the smoothing on both sides. -/
theorem smoothedCov_eq (win : Nat → F) (start len : Nat) {N : Nat} (cov : Matrix (Fin N) (Fin N) F) :
    smoothedCov win start len cov = weights win start len N * cov * (weights win start len N)ᵀ := by
  ext a b
  unfold smoothedCov colsLoop
  rw [cols_fold, if_pos (List.mem_finRange b), smooth_eq, Matrix.mul_assoc, Matrix.mul_apply]
  simp only [Matrix.mulVec, dotProduct]
  apply Finset.sum_congr rfl
  intro k _
  congr 1
  unfold rowsLoop
  rw [rows_fold, if_pos (List.mem_finRange k), smooth_eq, Matrix.mul_apply]
  simp only [Matrix.mulVec, dotProduct, Matrix.transpose_apply]
  apply Finset.sum_congr rfl
  intro j _
  ring

example : smoothedCov (fun _ => (1 : ℚ)) 1 3 !![4, 0; 0, 8] = !![3, 3; 3, 3] := by decide +kernel

/-- A smoothed covariance is a covariance: symmetric and not negative. -/
theorem smoothedCov_posSemidef (win : Nat → ℝ) (start len : Nat) {N : Nat} (cov : Matrix (Fin N) (Fin N) ℝ) (h : cov.PosSemidef) :
    (smoothedCov win start len cov).PosSemidef := by
  rw [smoothedCov_eq]
  have := h.mul_mul_conjTranspose_same (weights win start len N)
  simpa [Matrix.conjTranspose_eq_transpose_of_trivial] using this

example : (smoothedCov (fun k => (k : ℝ) + 1) 1 3 (1 : Matrix (Fin 5) (Fin 5) ℝ)).PosSemidef := smoothedCov_posSemidef _ _ _ _ PosSemidef.one

/-- Example: a window of three samples. -/
example : smooth (fun _ => (1 : ℚ)) 1 3 ![3, 6, 9] 0 = 9 / 2 ∧ smooth (fun _ => (1 : ℚ)) 1 3 ![3, 6, 9] 1 = 6 := by decide +kernel

/-- The full statement: the result has as many samples as the data. -/
def SameLength : Prop := ∀ n, sameLength n 200 = n

/-- Data shorter than the window of 200 samples give 200 samples, which do not fit into the covariance.  (smoothing.py:10-11, 18) -/
theorem short_fails : ¬ SameLength := by
  intro h
  have := h 50
  exact absurd this (by decide)

/-- Data not shorter than the window keep their length. -/
theorem sameLength_long (n len : Nat) (h : len ≤ n) : sameLength n len = n := by
  unfold sameLength
  omega

example : sameLength 2500 200 = 2500 ∧ sameLength 150 200 ≠ 150 := by decide

end Verif.Smooth
