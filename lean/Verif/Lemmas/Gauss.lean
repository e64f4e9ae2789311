import Mathlib.Analysis.Matrix.Order
import Mathlib.Analysis.SpecialFunctions.Gaussian.GaussianIntegral
import Mathlib.MeasureTheory.Integral.Pi
import Mathlib.MeasureTheory.Measure.Lebesgue.Basic
import Mathlib.MeasureTheory.Group.Integral
import Mathlib.LinearAlgebra.Matrix.SchurComplement

/-!
# Integrals of Gaussian functions of several variables
-/

namespace Verif.Gauss

set_option linter.unusedSectionVars false
open MeasureTheory Matrix Real
open scoped MatrixOrder

variable {ι κ : Type} [Fintype ι] [DecidableEq ι] [Fintype κ] [DecidableEq κ]

theorem exists_root (P : Matrix ι ι ℝ) (hP : P.PosDef) : ∃ B : Matrix ι ι ℝ, P = Bᵀ * B := by
  obtain ⟨B, h⟩ := CStarAlgebra.nonneg_iff_eq_star_mul_self.mp hP.posSemidef.nonneg
  exact ⟨B, by rw [h, star_eq_conjTranspose, conjTranspose_eq_transpose_of_trivial]⟩

theorem quad_root (B : Matrix ι ι ℝ) (x : ι → ℝ) : x ⬝ᵥ (Bᵀ * B) *ᵥ x = ∑ i, (B *ᵥ x) i ^ 2 := by
  rw [← mulVec_mulVec, dotProduct_mulVec, vecMul_transpose]
  simp only [dotProduct, pow_two]

theorem integral_unit : ∫ x : ι → ℝ, exp (-(∑ i, x i ^ 2) / 2) = √(2 * π) ^ Fintype.card ι := by
  have h : ∀ x : ι → ℝ, exp (-(∑ i, x i ^ 2) / 2) = ∏ i, exp (-(1 / 2) * x i ^ 2) := by
    intro x
    rw [← exp_sum, neg_div, Finset.sum_div, ← Finset.sum_neg_distrib]
    congr 1
    exact Finset.sum_congr rfl fun i _ => by ring
  simp_rw [h]
  rw [integral_fintype_prod_volume_eq_prod (fun (_ : ι) (t : ℝ) => exp (-(1 / 2) * t ^ 2))]
  rw [Finset.prod_const, integral_gaussian, Finset.card_univ]
  congr 2
  ring

theorem integral_comp_matrix (B : Matrix ι ι ℝ) (hB : B.det ≠ 0) (f : (ι → ℝ) → ℝ) (hf : AEStronglyMeasurable f volume) :
    ∫ x, f (B *ᵥ x) = |B.det|⁻¹ * ∫ x, f x := by
  have hm := Real.map_matrix_volume_pi_eq_smul_volume_pi hB
  have hmeas : Measurable (toLin' B) := (LinearMap.continuous_on_pi _).measurable
  have h1 : ∫ x, f x ∂(Measure.map (toLin' B) volume) = ∫ x, f (toLin' B x) := by
    apply integral_map hmeas.aemeasurable
    rw [hm]
    exact hf.smul_measure _
  rw [hm, integral_smul_measure, ENNReal.toReal_ofReal (abs_nonneg _)] at h1
  simp only [toLin'_apply, smul_eq_mul] at h1
  rw [← h1, abs_inv]

/-- The integral of a Gaussian function with precision matrix `P`. -/
theorem integral_quad (P : Matrix ι ι ℝ) (hP : P.PosDef) :
    ∫ x : ι → ℝ, exp (-(x ⬝ᵥ P *ᵥ x) / 2) = √(2 * π) ^ Fintype.card ι / √P.det := by
  obtain ⟨B, rfl⟩ := exists_root P hP
  have hd : (Bᵀ * B).det = B.det ^ 2 := by rw [det_mul, det_transpose, pow_two]
  have hB : B.det ≠ 0 := by
    intro h
    have := hP.det_pos
    rw [hd, h] at this
    norm_num at this
  have hi := integral_comp_matrix B hB (fun y => exp (-(∑ i, y i ^ 2) / 2)) (by
    apply Continuous.aestronglyMeasurable
    fun_prop)
  simp_rw [quad_root]
  rw [hi, integral_unit, hd, sqrt_sq_eq_abs]
  field_simp

/-- The same around any centre. -/
theorem integral_shift (P : Matrix ι ι ℝ) (hP : P.PosDef) (m : ι → ℝ) :
    ∫ x : ι → ℝ, exp (-((x - m) ⬝ᵥ P *ᵥ (x - m)) / 2) = √(2 * π) ^ Fintype.card ι / √P.det := by
  rw [← integral_quad P hP]
  exact integral_sub_right_eq_self (fun x => exp (-(x ⬝ᵥ P *ᵥ x) / 2)) m

/-- The density of the normal distribution. -/
noncomputable def normal (C : Matrix ι ι ℝ) (x : ι → ℝ) : ℝ :=
  exp (-(x ⬝ᵥ C⁻¹ *ᵥ x) / 2) / (√(2 * π) ^ Fintype.card ι * √C.det)

theorem normal_pos (C : Matrix ι ι ℝ) (hC : C.PosDef) (x : ι → ℝ) : 0 < normal C x := by
  unfold normal
  have := hC.det_pos
  have := pi_pos
  positivity

theorem integral_normal (C : Matrix ι ι ℝ) (hC : C.PosDef) (m : ι → ℝ) : ∫ x, normal C (x - m) = 1 := by
  unfold normal
  rw [integral_div, integral_shift _ hC.inv, det_nonsing_inv, Ring.inverse_eq_inv, sqrt_inv]
  have := hC.det_pos
  have := pi_pos
  field_simp

theorem integrable_normal (C : Matrix ι ι ℝ) (hC : C.PosDef) (m : ι → ℝ) : Integrable fun x => normal C (x - m) := by
  by_contra h
  have := integral_normal C hC m
  rw [integral_undef h] at this
  norm_num at this

/-! ### two blocks of variables -/

/-- the blocks of a covariance matrix and of its inverse -/
theorem blocks (C : Matrix (ι ⊕ κ) (ι ⊕ κ) ℝ) (hC : C.PosDef) :
    C⁻¹.toBlocks₂₂.PosDef ∧ C.toBlocks₁₁.PosDef ∧ C⁻¹.toBlocks₂₁ = C⁻¹.toBlocks₁₂ᵀ ∧
    C.toBlocks₁₁⁻¹ = C⁻¹.toBlocks₁₁ - C⁻¹.toBlocks₁₂ * C⁻¹.toBlocks₂₂⁻¹ * C⁻¹.toBlocks₂₁ ∧
    C.det = C.toBlocks₁₁.det / C⁻¹.toBlocks₂₂.det := by
  have hP := hC.inv
  have h22 : C⁻¹.toBlocks₂₂.PosDef := hP.submatrix Sum.inr_injective
  have h11 : C.toBlocks₁₁.PosDef := hC.submatrix Sum.inl_injective
  have hsym : C⁻¹.toBlocks₂₁ = C⁻¹.toBlocks₁₂ᵀ := by
    ext i j
    have := hP.isHermitian.apply (Sum.inr i) (Sum.inl j)
    simpa [toBlocks₂₁, toBlocks₁₂] using this.symm
  have hone : C⁻¹ * C = 1 := nonsing_inv_mul _ (by rw [isUnit_iff_ne_zero]; exact hC.det_pos.ne')
  have hdu : IsUnit C⁻¹.toBlocks₂₂.det := by
    rw [isUnit_iff_ne_zero]; exact h22.det_pos.ne'
  set A := C⁻¹.toBlocks₁₁
  set B := C⁻¹.toBlocks₁₂
  set B' := C⁻¹.toBlocks₂₁
  set D := C⁻¹.toBlocks₂₂
  have hCi : C⁻¹ = fromBlocks A B B' D := (fromBlocks_toBlocks _).symm
  have hb : fromBlocks A B B' D * fromBlocks C.toBlocks₁₁ C.toBlocks₁₂ C.toBlocks₂₁ C.toBlocks₂₂ = 1 := by
    rw [← hCi, fromBlocks_toBlocks, hone]
  rw [fromBlocks_multiply, ← fromBlocks_one, fromBlocks_inj] at hb
  obtain ⟨e1, -, e3, -⟩ := hb
  have hs : (A - B * D⁻¹ * B') * C.toBlocks₁₁ = 1 := by
    have : C.toBlocks₂₁ = -(D⁻¹ * (B' * C.toBlocks₁₁)) := by
      have h : D⁻¹ * (B' * C.toBlocks₁₁ + D * C.toBlocks₂₁) = D⁻¹ * (0 : Matrix κ ι ℝ) := by rw [e3]
      rw [Matrix.mul_add, Matrix.mul_zero] at h
      rw [← Matrix.mul_assoc D⁻¹ D, nonsing_inv_mul _ hdu, Matrix.one_mul] at h
      exact eq_neg_of_add_eq_zero_right h
    rw [this] at e1
    rw [← e1]
    simp only [Matrix.sub_mul, Matrix.mul_neg, Matrix.mul_assoc]
    rw [sub_eq_add_neg]
  have hinv : C.toBlocks₁₁⁻¹ = A - B * D⁻¹ * B' := inv_eq_left_inv hs
  refine ⟨h22, h11, hsym, hinv, ?_⟩
  have := Matrix.invertibleOfIsUnitDet D hdu
  have hdet : (C⁻¹).det = D.det * (A - B * D⁻¹ * B').det := by
    rw [hCi, det_fromBlocks₂₂, invOf_eq_nonsing_inv]
  rw [← hinv, det_nonsing_inv, det_nonsing_inv, Ring.inverse_eq_inv, Ring.inverse_eq_inv] at hdet
  have h1 := hC.det_pos.ne'
  have h2 := h11.det_pos.ne'
  have h3 := h22.det_pos.ne'
  field_simp at hdet ⊢
  linear_combination -hdet

/-- Completing the square: the normal distribution of two blocks is that of the first block times that of the second one for a
known first one. -/
theorem normal_split (C : Matrix (ι ⊕ κ) (ι ⊕ κ) ℝ) (hC : C.PosDef) (x : ι → ℝ) (y : κ → ℝ) :
    normal C (Sum.elim x y) = normal C.toBlocks₁₁ x *
      normal C⁻¹.toBlocks₂₂⁻¹ (y + (C⁻¹.toBlocks₂₂⁻¹ * C⁻¹.toBlocks₂₁) *ᵥ x) := by
  obtain ⟨h22, h11, hsym, hinv, hdet⟩ := blocks C hC
  have hdu : IsUnit C⁻¹.toBlocks₂₂.det := by
    rw [isUnit_iff_ne_zero]; exact h22.det_pos.ne'
  have := Matrix.invertibleOfIsUnitDet _ hdu
  have hq : Sum.elim x y ⬝ᵥ C⁻¹ *ᵥ Sum.elim x y =
      (y + (C⁻¹.toBlocks₂₂⁻¹ * C⁻¹.toBlocks₂₁) *ᵥ x) ⬝ᵥ C⁻¹.toBlocks₂₂ *ᵥ (y + (C⁻¹.toBlocks₂₂⁻¹ * C⁻¹.toBlocks₂₁) *ᵥ x) +
      x ⬝ᵥ C.toBlocks₁₁⁻¹ *ᵥ x := by
    have h := schur_complement_eq₂₂ C⁻¹.toBlocks₁₁ C⁻¹.toBlocks₁₂ x y h22.isHermitian
    rw [conjTranspose_eq_transpose_of_trivial, ← hsym, fromBlocks_toBlocks, ← hinv] at h
    simp only [star_trivial, ← dotProduct_mulVec] at h
    rw [h, add_comm y]
  unfold normal
  rw [hq, nonsing_inv_nonsing_inv _ hdu, det_nonsing_inv, Ring.inverse_eq_inv, hdet, Fintype.card_sum, pow_add,
    neg_add, add_div, exp_add]
  have h1 := h11.det_pos
  have h2 := h22.det_pos
  have := pi_pos
  rw [sqrt_div h1.le, sqrt_inv]
  field_simp

/-- Integrating out the second block. -/
theorem integral_block (C : Matrix (ι ⊕ κ) (ι ⊕ κ) ℝ) (hC : C.PosDef) (x : ι → ℝ) (m : κ → ℝ) :
    ∫ y : κ → ℝ, normal C (Sum.elim x (y - m)) = normal C.toBlocks₁₁ x := by
  obtain ⟨h22, -, -, -, -⟩ := blocks C hC
  simp_rw [normal_split C hC]
  rw [integral_const_mul]
  have : ∀ y : κ → ℝ, y - m + (C⁻¹.toBlocks₂₂⁻¹ * C⁻¹.toBlocks₂₁) *ᵥ x =
      y - (m - (C⁻¹.toBlocks₂₂⁻¹ * C⁻¹.toBlocks₂₁) *ᵥ x) := fun y => by abel
  simp_rw [this]
  rw [integral_normal _ h22.inv, mul_one]

/-- Renaming the variables. -/
theorem normal_reindex (e : κ ≃ ι) (C : Matrix ι ι ℝ) (x : ι → ℝ) : normal (C.submatrix e e) (x ∘ e) = normal C x := by
  unfold normal
  rw [inv_submatrix_equiv, det_submatrix_equiv_self, Fintype.card_congr e]
  congr 4
  simp only [dotProduct, mulVec, submatrix_apply, Function.comp_apply]
  rw [← e.sum_comp]
  refine Finset.sum_congr rfl fun i _ => ?_
  rw [← e.sum_comp]

end Verif.Gauss
