import Mathlib.LinearAlgebra.Matrix.Charpoly.Basic
import Mathlib.LinearAlgebra.Matrix.ToLinearEquiv
import Mathlib.LinearAlgebra.Matrix.Notation
import Mathlib.Algebra.Polynomial.Roots
import Mathlib.Data.List.Sort
import Verif.Model.SigNoise

/-!
# Signal to noise eigenvalues (C214)
-/

namespace Verif.SigNoise
open Matrix

variable {n : ℕ}

/-- what numpy promises for `cholesky` -/
def CholSpec (chol : Mat n → Option (Mat n)) : Prop := ∀ N L, chol N = some L → L * Lᵀ = N ∧ IsUnit L.det

/-- what numpy promises for `eigh` on symmetric matrices: ascending eigenvalues and orthonormal eigenvectors; `eigvalsh` gives the same values -/
def EighSpec (eigh : Mat n → (Fin n → ℝ) × Mat n) (eigvalsh : Mat n → Fin n → ℝ) : Prop := ∀ M : Mat n, Mᵀ = M →
  (eigh M).2ᵀ * (eigh M).2 = 1 ∧ M * (eigh M).2 = (eigh M).2 * diagonal (eigh M).1 ∧ Monotone (eigh M).1 ∧ eigvalsh M = (eigh M).1

variable {chol : Mat n → Option (Mat n)} {eigh : Mat n → (Fin n → ℝ) × Mat n} {eigvalsh : Mat n → Fin n → ℝ}

theorem full_spec (he : EighSpec eigh eigvalsh) {C R N : Mat n} (hC : Cᵀ = C) (hR : R * N * Rᵀ = 1) {w : Fin n → ℝ} {U : Mat n}
    (h : signalToNoise chol eigh eigvalsh C none (some R) false = .ok (.full w U)) :
    U * N * Uᵀ = 1 ∧ U * C * Uᵀ = diagonal w ∧ C * Uᵀ = N * Uᵀ * diagonal w ∧ Monotone w := by
  unfold signalToNoise at h
  dsimp only at h
  rw [if_neg (by simp)] at h
  simp only [Except.ok.injEq, Result.full.injEq] at h
  obtain ⟨rfl, rfl⟩ := h
  have hM : (R * C * Rᵀ)ᵀ = R * C * Rᵀ := by
    rw [transpose_mul, transpose_mul, transpose_transpose, hC, Matrix.mul_assoc]
  obtain ⟨h1, h2, h3, _⟩ := he _ hM
  generalize hV : (eigh (R * C * Rᵀ)).2 = V at h1 h2 ⊢
  generalize (eigh (R * C * Rᵀ)).1 = w at h2 h3 ⊢
  have a1 : Vᵀ * R * N * (Vᵀ * R)ᵀ = 1 := by
    rw [transpose_mul, transpose_transpose]
    calc Vᵀ * R * N * (Rᵀ * V) = Vᵀ * (R * N * Rᵀ) * V := by simp only [Matrix.mul_assoc]
      _ = 1 := by rw [hR, Matrix.mul_one, h1]
  have a2 : Vᵀ * R * C * (Vᵀ * R)ᵀ = diagonal w := by
    rw [transpose_mul, transpose_transpose]
    calc Vᵀ * R * C * (Rᵀ * V) = Vᵀ * ((R * C * Rᵀ) * V) := by simp only [Matrix.mul_assoc]
      _ = diagonal w := by rw [h2, ← Matrix.mul_assoc, h1, Matrix.one_mul]
  refine ⟨a1, a2, ?_, h3⟩
  have inv : N * (Vᵀ * R)ᵀ * (Vᵀ * R) = 1 := by
    have : (Vᵀ * R) * (N * (Vᵀ * R)ᵀ) = 1 := by rw [← Matrix.mul_assoc]; exact a1
    exact mul_eq_one_comm.mp this
  calc C * (Vᵀ * R)ᵀ = N * (Vᵀ * R)ᵀ * (Vᵀ * R) * (C * (Vᵀ * R)ᵀ) := by rw [inv, Matrix.one_mul]
    _ = N * (Vᵀ * R)ᵀ * (Vᵀ * R * C * (Vᵀ * R)ᵀ) := by simp only [Matrix.mul_assoc]
    _ = _ := by rw [a2]

theorem chol_rotation {N L : Mat n} (h : L * Lᵀ = N) (hu : IsUnit L.det) : L⁻¹ * N * L⁻¹ᵀ = 1 := by
  rw [← h, ← Matrix.mul_assoc, nonsing_inv_mul L hu, Matrix.one_mul, ← transpose_mul, nonsing_inv_mul L hu, transpose_one]

/-- with a noise matrix, the root is used as rotation -/
theorem by_noise (hc : CholSpec chol) {C N : Mat n} {r : Result n} {eo : Bool}
    (h : signalToNoise chol eigh eigvalsh C (some N) none eo = .ok r) :
    ∃ R : Mat n, R * N * Rᵀ = 1 ∧ signalToNoise chol eigh eigvalsh C none (some R) eo = .ok r := by
  unfold signalToNoise rotation at h
  dsimp only at h
  cases hn : chol N with
  | none => rw [hn] at h; cases h
  | some L =>
    rw [hn] at h
    obtain ⟨h1, h2⟩ := hc N L hn
    exact ⟨L⁻¹, chol_rotation h1 h2, h⟩

/-- **C214** `w, U = getSignalToNoise(C, noise)`: the rows of `U` are combinations of the parameters with unit noise, uncorrelated both in the noise and
in the signal, with signal variances `w`, in ascending order: `C u = w N u`. -/
theorem noise_spec (hc : CholSpec chol) (he : EighSpec eigh eigvalsh) {C N : Mat n} (hC : Cᵀ = C) {w : Fin n → ℝ} {U : Mat n}
    (h : signalToNoise chol eigh eigvalsh C (some N) none false = .ok (.full w U)) :
    U * N * Uᵀ = 1 ∧ U * C * Uᵀ = diagonal w ∧ C * Uᵀ = N * Uᵀ * diagonal w ∧ Monotone w := by
  obtain ⟨R, hR, h'⟩ := by_noise hc h
  exact full_spec he hC hR h'

/-- **C214** Hence the signal variance of any combination, in units of its noise, lies between the first and the last of `w`. -/
theorem bounds {C N U : Mat n} {w : Fin n → ℝ} (h1 : U * N * Uᵀ = 1) (h2 : U * C * Uᵀ = diagonal w) (a b : ℝ) (ha : ∀ i, a ≤ w i) (hb : ∀ i, w i ≤ b)
    (v : Fin n → ℝ) : a * (v ⬝ᵥ N *ᵥ v) ≤ v ⬝ᵥ C *ᵥ v ∧ v ⬝ᵥ C *ᵥ v ≤ b * (v ⬝ᵥ N *ᵥ v) := by
  have hU : U * (N * Uᵀ) = 1 := by rw [← Matrix.mul_assoc]; exact h1
  have hd : IsUnit U.det := by
    have := congrArg Matrix.det hU
    rw [det_mul, det_one] at this
    exact IsUnit.of_mul_eq_one _ this
  have hdT : IsUnit (Uᵀ).det := by rwa [det_transpose]
  obtain ⟨y, hy⟩ : ∃ y, v = Uᵀ *ᵥ y := ⟨(Uᵀ)⁻¹ *ᵥ v, by rw [mulVec_mulVec, mul_nonsing_inv _ hdT, one_mulVec]⟩
  have q : ∀ A : Mat n, v ⬝ᵥ A *ᵥ v = y ⬝ᵥ (U * A * Uᵀ) *ᵥ y := by
    intro A
    rw [hy, ← mulVec_mulVec, ← mulVec_mulVec, dotProduct_mulVec (Uᵀ *ᵥ y), dotProduct_mulVec y, dotProduct_mulVec, dotProduct_mulVec]
    rw [← vecMul_transpose Uᵀ y, transpose_transpose, ← dotProduct_mulVec, mulVec_transpose]
  rw [q N, q C, h1, h2, one_mulVec]
  have e1 : y ⬝ᵥ y = ∑ i, y i * y i := rfl
  have e2 : y ⬝ᵥ diagonal w *ᵥ y = ∑ i, w i * (y i * y i) := by
    unfold dotProduct
    refine Finset.sum_congr rfl (fun i _ => ?_)
    rw [mulVec_diagonal]; ring
  rw [e1, e2, Finset.mul_sum, Finset.mul_sum]
  refine ⟨Finset.sum_le_sum (fun i _ => ?_), Finset.sum_le_sum (fun i _ => ?_)⟩
  · exact mul_le_mul_of_nonneg_right (ha i) (mul_self_nonneg _)
  · exact mul_le_mul_of_nonneg_right (hb i) (mul_self_nonneg _)

/-! the eigenvalues depend on the noise only -/

theorem charpoly_diag (w : Fin n → ℝ) : (diagonal w).charpoly = ∏ i, (Polynomial.X - Polynomial.C (w i)) := by
  unfold charpoly
  have : charmatrix (diagonal w) = diagonal (fun i => Polynomial.X - Polynomial.C (w i)) := by
    ext i j
    by_cases h : i = j
    · subst h; simp [charmatrix_apply_eq]
    · rw [charmatrix_apply_ne _ _ _ h, diagonal_apply_ne _ h, diagonal_apply_ne _ h]; simp
  rw [this, det_diagonal]

theorem sorted_unique {w v : Fin n → ℝ} (hw : Monotone w) (hv : Monotone v) (h : (diagonal w).charpoly = (diagonal v).charpoly) : w = v := by
  rw [charpoly_diag, charpoly_diag] at h
  have hr : ∀ u : Fin n → ℝ, (∏ i, (Polynomial.X - Polynomial.C (u i))).roots = Multiset.map u Finset.univ.val := by
    intro u
    have := Polynomial.roots_multiset_prod_X_sub_C (Multiset.map u Finset.univ.val)
    rw [Multiset.map_map] at this
    exact this
  have hm : Multiset.map w Finset.univ.val = Multiset.map v Finset.univ.val := by rw [← hr w, ← hr v, h]
  have hp : (List.ofFn w).Perm (List.ofFn v) := by
    rw [← Multiset.coe_eq_coe]
    have e : ∀ u : Fin n → ℝ, (↑(List.ofFn u) : Multiset ℝ) = Multiset.map u Finset.univ.val := by
      intro u
      rw [List.ofFn_eq_map, ← Multiset.map_coe]
      rfl
    rw [e, e, hm]
  have := hp.eq_of_sortedLE hw.sortedLE_ofFn hv.sortedLE_ofFn
  exact List.ofFn_injective this

/-- **C214** The values do not depend on how the noise matrix is split: any rotation `R` with `R N Rᵀ = 1` gives the same `w`; and `eigs_only` gives them too. -/
theorem eigs_unique (he : EighSpec eigh eigvalsh) {C N R₁ R₂ : Mat n} (hC : Cᵀ = C) (h1 : R₁ * N * R₁ᵀ = 1) (h2 : R₂ * N * R₂ᵀ = 1) {w v : Fin n → ℝ} {U : Mat n}
    (hw : signalToNoise chol eigh eigvalsh C none (some R₁) false = .ok (.full w U))
    (hv : (∃ V, signalToNoise chol eigh eigvalsh C none (some R₂) false = .ok (.full v V)) ∨ signalToNoise chol eigh eigvalsh C none (some R₂) true = .ok (.eigs v)) :
    w = v := by
  have key : ∀ R : Mat n, R * N * Rᵀ = 1 → (R * C * Rᵀ).charpoly = (N⁻¹ * C).charpoly ∧ (R * C * Rᵀ).charpoly = (diagonal (eigh (R * C * Rᵀ)).1).charpoly ∧
      Monotone (eigh (R * C * Rᵀ)).1 ∧ eigvalsh (R * C * Rᵀ) = (eigh (R * C * Rᵀ)).1 := by
    intro R hR
    have hM : (R * C * Rᵀ)ᵀ = R * C * Rᵀ := by
      rw [transpose_mul, transpose_mul, transpose_transpose, hC, Matrix.mul_assoc]
    obtain ⟨e1, e2, e3, e4⟩ := he _ hM
    refine ⟨?_, ?_, e3, e4⟩
    · rw [charpoly_mul_comm, ← Matrix.mul_assoc]
      congr 2
      have : N * (Rᵀ * R) = 1 := by
        have : R * (N * Rᵀ) = 1 := by rw [← Matrix.mul_assoc]; exact hR
        rw [← Matrix.mul_assoc]
        exact mul_eq_one_comm.mp this
      exact (inv_eq_right_inv this).symm
    · have e : diagonal (eigh (R * C * Rᵀ)).1 = (eigh (R * C * Rᵀ)).2ᵀ * ((R * C * Rᵀ) * (eigh (R * C * Rᵀ)).2) := by
        rw [e2, ← Matrix.mul_assoc, e1, Matrix.one_mul]
      conv_rhs => rw [e, charpoly_mul_comm, Matrix.mul_assoc, mul_eq_one_comm.mp e1, Matrix.mul_one]
  obtain ⟨a1, a2, a3, _⟩ := key R₁ h1
  obtain ⟨b1, b2, b3, b4⟩ := key R₂ h2
  have hw' : (eigh (R₁ * C * R₁ᵀ)).1 = w := by
    unfold signalToNoise at hw
    dsimp only at hw
    rw [if_neg (by simp)] at hw
    simp only [Except.ok.injEq, Result.full.injEq] at hw
    exact hw.1
  have hv' : (eigh (R₂ * C * R₂ᵀ)).1 = v := by
    unfold signalToNoise at hv
    dsimp only at hv
    rcases hv with ⟨V, hv⟩ | hv
    · rw [if_neg (by simp)] at hv
      simp only [Except.ok.injEq, Result.full.injEq] at hv
      exact hv.1
    · rw [if_pos rfl] at hv
      simp only [Except.ok.injEq, Result.eigs.injEq] at hv
      rw [← b4]; exact hv
  rw [← hw', ← hv']
  refine sorted_unique a3 b3 ?_
  rw [← a2, ← b2, a1, b1]

/-- **C214** Neither noise nor rotation, or a noise matrix that is not positive: an error. -/
theorem refused (C : Mat n) (eo : Bool) : signalToNoise chol eigh eigvalsh C none none eo = .error .neither ∧
    ∀ N, chol N = none → signalToNoise chol eigh eigvalsh C (some N) none eo = .error .linalg := by
  refine ⟨rfl, fun N h => ?_⟩
  unfold signalToNoise rotation
  dsimp only
  rw [h]

/-- one parameter: the ratio of the variances -/
example (c s : ℝ) (hs : s ≠ 0) : let L : Mat 1 := !![s]
    signalToNoise (fun _ => some L) (fun M => (fun _ => M 0 0, 1)) (fun M _ => M 0 0) !![c] (some !![s * s]) none true = .ok (.eigs (fun _ => c / (s * s))) := by
  intro L
  unfold signalToNoise rotation
  simp only [if_true]
  congr 2
  funext _
  have : L⁻¹ = !![s⁻¹] := by
    apply inv_eq_right_inv
    ext i j
    fin_cases i; fin_cases j
    simp [L, Matrix.mul_apply, hs]
  rw [this]
  simp [Matrix.mul_apply]
  field_simp

end Verif.SigNoise
