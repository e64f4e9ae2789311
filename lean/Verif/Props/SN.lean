import Verif.Model.SN
import Mathlib.Analysis.SpecialFunctions.Gaussian.GaussianIntegral
import Mathlib.LinearAlgebra.Matrix.PosDef
import Mathlib.Analysis.Matrix.PosDef
import Mathlib.Algebra.Order.Star.Real

/-!
# The supernova likelihood is the integral over the unknown magnitudes

Specification: `chi2` is the quadratic form of the residuals, `marg1` and `marg2` integrate its exponential over one or two unknown magnitudes.
-/

namespace Verif.SN
open Verif.Py Matrix Real MeasureTheory

set_option linter.unusedSectionVars false

variable {n : Nat}

/-- chi squared of residuals -/
noncomputable def chi2 (m : Matrix (Fin n) (Fin n) ℝ) (x : Fin n → ℝ) : ℝ := x ⬝ᵥ m *ᵥ x

/-- integral over one magnitude common to all supernovae -/
noncomputable def marg1 (m : Matrix (Fin n) (Fin n) ℝ) (x : Fin n → ℝ) : ℝ := ∫ t : ℝ, exp (-chi2 m (fun i => x i - t) / 2)

/-- integral over the magnitudes of two groups of supernovae -/
noncomputable def marg2 (m : Matrix (Fin n) (Fin n) ℝ) (a1 a2 x : Fin n → ℝ) : ℝ :=
  ∫ t : ℝ, ∫ u : ℝ, exp (-chi2 m (fun i => x i - t * a1 i - u * a2 i) / 2)

/-- integral over the unknown magnitudes -/
noncomputable def marg (sp : Option ((Fin n → ℝ) × (Fin n → ℝ))) (m : Matrix (Fin n) (Fin n) ℝ) (x : Fin n → ℝ) : ℝ :=
  match sp with
  | none => marg1 m x
  | some (a1, a2) => marg2 m a1 a2 x

theorem gauss1 (A B E : ℝ) (hE : 0 < E) :
    ∫ t : ℝ, exp (-(A - 2 * t * B + t ^ 2 * E) / 2) = exp (-(A - B ^ 2 / E) / 2) * √(2 * π / E) := by
  have h : ∀ t : ℝ, exp (-(A - 2 * t * B + t ^ 2 * E) / 2) = exp (-(A - B ^ 2 / E) / 2) * exp (-(E / 2) * (t - B / E) ^ 2) := by
    intro t
    rw [← exp_add]
    congr 1
    field_simp
    ring
  simp_rw [h]
  rw [integral_const_mul, integral_sub_right_eq_self (fun t => exp (-(E / 2) * t ^ 2)) (B / E), integral_gaussian]
  congr 2
  field_simp

theorem half_log (x : ℝ) (hx : 0 < x) : exp (-(log x) / 2) = √(1 / x) := by
  rw [sqrt_eq_rpow, rpow_def_of_pos (by positivity), one_div, log_inv]
  ring_nf

theorem symm_dot (m : Matrix (Fin n) (Fin n) ℝ) (hm : mᵀ = m) (u v : Fin n → ℝ) : u ⬝ᵥ m *ᵥ v = v ⬝ᵥ m *ᵥ u := by
  rw [dotProduct_mulVec, ← mulVec_transpose, hm, dotProduct_comm]

theorem posDef_symm {m : Matrix (Fin n) (Fin n) ℝ} (hm : m.PosDef) : mᵀ = m := by
  have := hm.1
  rwa [IsHermitian, conjTranspose_eq_transpose_of_trivial] at this

theorem posDef_chi2 {m : Matrix (Fin n) (Fin n) ℝ} (hm : m.PosDef) (x : Fin n → ℝ) (hx : x ≠ 0) : 0 < chi2 m x := by
  have := hm.dotProduct_mulVec_pos hx
  simpa [chi2] using this

theorem chi2_sub (m : Matrix (Fin n) (Fin n) ℝ) (hm : mᵀ = m) (x a : Fin n → ℝ) (t : ℝ) :
    chi2 m (fun i => x i - t * a i) = chi2 m x - 2 * t * (a ⬝ᵥ m *ᵥ x) + t ^ 2 * chi2 m a := by
  have : (fun i => x i - t * a i) = x - t • a := by
    funext i
    simp
  rw [this, chi2, chi2, chi2, mulVec_sub, mulVec_smul, sub_dotProduct, dotProduct_sub, dotProduct_sub, smul_dotProduct, smul_dotProduct,
    dotProduct_smul, dotProduct_smul, symm_dot m hm x a]
  simp only [smul_eq_mul]
  ring

theorem sum_ones (m : Matrix (Fin n) (Fin n) ℝ) : (∑ i, ∑ j, m i j) = chi2 m (fun _ => 1) := by
  simp [chi2, dotProduct, mulVec]

/-- With one unknown magnitude the likelihood is minus the logarithm of the integral over it. -/
theorem like1_spec (m : Matrix (Fin n) (Fin n) ℝ) (hm : m.PosDef) (hn : 0 < n) (x : Fin n → ℝ) : exp (-like1 m x) = marg1 m x := by
  have hs := posDef_symm hm
  have hE : 0 < chi2 m (fun _ => 1) := by
    apply posDef_chi2 hm
    intro h
    have := congrFun h ⟨0, hn⟩
    simp at this
  unfold marg1
  have h : ∀ t : ℝ, chi2 m (fun i => x i - t) = chi2 m x - 2 * t * ((fun _ => 1) ⬝ᵥ m *ᵥ x) + t ^ 2 * chi2 m (fun _ => 1) := by
    intro t
    rw [← chi2_sub m hs x (fun _ => 1) t]
    simp
  simp_rw [h]
  rw [gauss1 _ _ _ hE, like1, sum_ones]
  have hB : (∑ i, (m *ᵥ x) i) = (fun _ => 1) ⬝ᵥ m *ᵥ x := by simp [dotProduct]
  rw [hB]
  generalize (fun _ => 1) ⬝ᵥ m *ᵥ x = B
  generalize chi2 m (fun _ => 1) = E at *
  rw [show √(2 * π / E) = √(1 / (E / (2 * π))) by congr 1; field_simp, ← half_log _ (by positivity), ← exp_add]
  congr 1
  simp only [chi2]
  ring

/-- Example: one supernova of unit variance. -/
example (x : Fin 1 → ℝ) : exp (-like1 1 x) = √(2 * π) := by
  rw [like1_spec 1 PosDef.one (by norm_num)]
  unfold marg1
  have h : ∀ t : ℝ, exp (-chi2 (1 : Matrix (Fin 1) (Fin 1) ℝ) (fun i => x i - t) / 2) = exp (-(1 / 2) * (t - x 0) ^ 2) := by
    intro t
    simp only [chi2, one_mulVec, dotProduct, Fin.sum_univ_one]
    congr 1
    ring
  simp_rw [h]
  rw [integral_sub_right_eq_self (fun t => exp (-(1 / 2) * t ^ 2)) (x 0), integral_gaussian]
  congr 1
  field_simp

/-- `tempG` is positive, and so are the other quantities: the assertion of the code holds. -/
theorem like2_pos (m : Matrix (Fin n) (Fin n) ℝ) (hm : m.PosDef) (a1 a2 : Fin n → ℝ) (h1 : ∃ i, a1 i ≠ 0 ∧ a2 i = 0) (h2 : ∃ i, a1 i = 0 ∧ a2 i ≠ 0) :
    0 < chi2 m a1 ∧ 0 < chi2 m a2 ∧ 0 < chi2 m a2 - (a2 ⬝ᵥ m *ᵥ a1) * (a2 ⬝ᵥ m *ᵥ a1) / chi2 m a1 := by
  have hs := posDef_symm hm
  obtain ⟨i, hi, hi'⟩ := h1
  obtain ⟨j, hj, hj'⟩ := h2
  have hE : 0 < chi2 m a1 := posDef_chi2 hm _ (fun h => hi (congrFun h i))
  have hF : 0 < chi2 m a2 := posDef_chi2 hm _ (fun h => hj' (congrFun h j))
  refine ⟨hE, hF, ?_⟩
  have hv := posDef_chi2 hm (fun k => a2 k - ((a2 ⬝ᵥ m *ᵥ a1) / chi2 m a1) * a1 k) (by
    intro h
    have := congrFun h j
    simp [hj] at this
    exact hj' this)
  rw [chi2_sub m hs, symm_dot m hs a1 a2] at hv
  generalize a2 ⬝ᵥ m *ᵥ a1 = D at *
  generalize chi2 m a1 = E at *
  have : chi2 m a2 - 2 * (D / E) * D + (D / E) ^ 2 * E = chi2 m a2 - D * D / E := by
    field_simp
    ring
  rwa [this] at hv

/-- With two unknown magnitudes the likelihood is minus the logarithm of the integral over both. -/
theorem like2_spec (m : Matrix (Fin n) (Fin n) ℝ) (hm : m.PosDef) (a1 a2 : Fin n → ℝ) (h1 : ∃ i, a1 i ≠ 0 ∧ a2 i = 0) (h2 : ∃ i, a1 i = 0 ∧ a2 i ≠ 0)
    (x : Fin n → ℝ) : exp (-like2 m a1 a2 x) = marg2 m a1 a2 x := by
  have hs := posDef_symm hm
  obtain ⟨hE, hF, hG⟩ := like2_pos m hm a1 a2 h1 h2
  unfold marg2
  have hin : ∀ t : ℝ, (∫ u : ℝ, exp (-chi2 m (fun i => x i - t * a1 i - u * a2 i) / 2)) =
      exp (-((chi2 m x - (a2 ⬝ᵥ m *ᵥ x) ^ 2 / chi2 m a2) - 2 * t * (a1 ⬝ᵥ m *ᵥ x - (a2 ⬝ᵥ m *ᵥ a1) * (a2 ⬝ᵥ m *ᵥ x) / chi2 m a2)
        + t ^ 2 * (chi2 m a1 - (a2 ⬝ᵥ m *ᵥ a1) ^ 2 / chi2 m a2)) / 2) * √(2 * π / chi2 m a2) := by
    intro t
    have h : ∀ u : ℝ, chi2 m (fun i => x i - t * a1 i - u * a2 i) =
        chi2 m (fun i => x i - t * a1 i) - 2 * u * (a2 ⬝ᵥ m *ᵥ fun i => x i - t * a1 i) + u ^ 2 * chi2 m a2 := fun u => chi2_sub m hs _ a2 u
    simp_rw [h]
    rw [gauss1 _ _ _ hF, chi2_sub m hs]
    have hx : (fun i => x i - t * a1 i) = x - t • a1 := by
      funext i
      simp
    rw [hx, mulVec_sub, mulVec_smul, dotProduct_sub, dotProduct_smul, smul_eq_mul]
    congr 2
    field_simp
    ring
  simp_rw [hin]
  rw [integral_mul_const]
  have hH : 0 < chi2 m a1 - (a2 ⬝ᵥ m *ᵥ a1) ^ 2 / chi2 m a2 := by
    have : chi2 m a1 - (a2 ⬝ᵥ m *ᵥ a1) ^ 2 / chi2 m a2 = (chi2 m a2 - (a2 ⬝ᵥ m *ᵥ a1) * (a2 ⬝ᵥ m *ᵥ a1) / chi2 m a1) * chi2 m a1 / chi2 m a2 := by
      field_simp
    rw [this]
    positivity
  rw [gauss1 _ _ _ hH, like2]
  have e1 : m *ᵥ x ⬝ᵥ x = chi2 m x := dotProduct_comm _ _
  have e2 : m *ᵥ x ⬝ᵥ a1 = a1 ⬝ᵥ m *ᵥ x := dotProduct_comm _ _
  have e3 : m *ᵥ x ⬝ᵥ a2 = a2 ⬝ᵥ m *ᵥ x := dotProduct_comm _ _
  have e4 : m *ᵥ a1 ⬝ᵥ a2 = a2 ⬝ᵥ m *ᵥ a1 := dotProduct_comm _ _
  have e5 : m *ᵥ a1 ⬝ᵥ a1 = chi2 m a1 := dotProduct_comm _ _
  have e6 : m *ᵥ a2 ⬝ᵥ a2 = chi2 m a2 := dotProduct_comm _ _
  simp only [e1, e2, e3, e4, e5, e6]
  generalize chi2 m x = A
  generalize a1 ⬝ᵥ m *ᵥ x = B
  generalize a2 ⬝ᵥ m *ᵥ x = C
  generalize a2 ⬝ᵥ m *ᵥ a1 = D at *
  generalize chi2 m a1 = E at *
  generalize chi2 m a2 = F at *
  have hEG : E * (F - D * D / E) = F * (E - D ^ 2 / F) := by
    field_simp
  generalize hg : F - D * D / E = G at *
  generalize hh : E - D ^ 2 / F = H at *
  have hp := pi_pos
  have hroot : √(2 * π / H) * √(2 * π / F) = exp (-(log (E / (2 * π)) + log (G / (2 * π))) / 2) := by
    rw [← log_mul (by positivity) (by positivity), half_log _ (by positivity), ← sqrt_mul (by positivity)]
    congr 1
    have : F * H = E * G := hEG.symm
    field_simp
    linarith
  rw [mul_assoc (exp _), hroot, ← exp_add]
  congr 1
  have hG' : G = F * H / E := by
    rw [← hEG]
    field_simp
  have hHe : E = H + D ^ 2 / F := by rw [← hh]; ring
  have hmain : C * C / G + B * B * F / (E * G) - 2 * B * C * D / (E * G) = C ^ 2 / F + (B - D * C / F) ^ 2 / H := by
    rw [hG', show E * (F * H / E) = F * H by field_simp]
    rw [show C * C / (F * H / E) = C * C * E / (F * H) by field_simp]
    rw [hHe]
    field_simp
    ring
  linarith

/-- Example: two supernovae with a magnitude each. -/
example (x : Fin 2 → ℝ) : exp (-like2 1 ![1, 0] ![0, 1] x) = marg2 1 ![1, 0] ![0, 1] x :=
  like2_spec 1 PosDef.one _ _ ⟨0, by simp⟩ ⟨1, by simp⟩ x

/-- The two groups are not empty, do not overlap and contain all supernovae. -/
theorem split_spec (two : Bool) (third : Fin n → ℝ) (cut : ℝ) (a1 a2 : Fin n → ℝ) (h : split two third cut = some (a1, a2)) :
    two = true ∧ (∃ i, a1 i = 1 ∧ a2 i = 0) ∧ (∃ i, a1 i = 0 ∧ a2 i = 1) ∧ (∀ i, a1 i + a2 i = 1) ∧
    ∀ i, (third i ≤ cut → a1 i = 1 ∧ a2 i = 0) ∧ (cut < third i → a1 i = 0 ∧ a2 i = 1) := by
  unfold split at h
  split_ifs at h with hc
  obtain ⟨h2, ⟨i, hi⟩, ⟨j, hj⟩⟩ := hc
  simp only [Option.some.injEq, Prod.mk.injEq] at h
  obtain ⟨rfl, rfl⟩ := h
  refine ⟨h2, ⟨i, by simp [hi, not_lt.mpr hi]⟩, ⟨j, by simp [hj, not_le.mpr hj]⟩, ?_, ?_⟩
  · intro k
    rcases le_or_gt (third k) cut with hk | hk
    · simp [hk, not_lt.mpr hk]
    · simp [hk, not_le.mpr hk]
  · intro k
    constructor
    · intro hk
      simp [hk, not_lt.mpr hk]
    · intro hk
      simp [hk, not_le.mpr hk]

/-- Two magnitudes are fitted exactly when this was asked for and there are supernovae in both groups. -/
theorem split_isSome (two : Bool) (third : Fin n → ℝ) (cut : ℝ) :
    (split two third cut).isSome = true ↔ two = true ∧ (∃ i, third i ≤ cut) ∧ ∃ i, cut < third i := by
  unfold split
  split_ifs with h
  · simp [h]
  · simp [h]

/-- Example: masses on both sides of the cut. -/
example : (split true ![9, 11] 10).isSome = true :=
  (split_isSome _ _ _).mpr ⟨rfl, ⟨0, by norm_num⟩, ⟨1, by norm_num⟩⟩

/-- the groups of a likelihood: none, or those of the third variable -/
def IsSplit (sp : Option ((Fin n → ℝ) × (Fin n → ℝ))) : Prop := ∃ two third cut, sp = split two third cut

theorem likeOf_spec (sp : Option ((Fin n → ℝ) × (Fin n → ℝ))) (hsp : IsSplit sp) (m : Matrix (Fin n) (Fin n) ℝ) (hm : m.PosDef) (hn : 0 < n) (x : Fin n → ℝ) :
    exp (-likeOf sp m x) = marg sp m x := by
  match sp, hsp with
  | none, _ => exact like1_spec m hm hn x
  | some (a1, a2), ⟨two, third, cut, h⟩ =>
    obtain ⟨-, ⟨i, hi, hi'⟩, ⟨j, hj, hj'⟩, -⟩ := split_spec two third cut a1 a2 h.symm
    exact like2_spec m hm a1 a2 ⟨i, by simp [hi], hi'⟩ ⟨j, hj, by simp [hj']⟩ x

/-- The integral does not change when a constant is added to all magnitudes. -/
theorem marg_shift (sp : Option ((Fin n → ℝ) × (Fin n → ℝ))) (hsp : IsSplit sp) (m : Matrix (Fin n) (Fin n) ℝ) (x : Fin n → ℝ) (k : ℝ) :
    marg sp m (fun i => x i + k) = marg sp m x := by
  match sp, hsp with
  | none, _ =>
    simp only [marg, marg1]
    rw [← integral_sub_right_eq_self (fun t => exp (-chi2 m (fun i => x i - t) / 2)) k]
    congr 1
    funext t
    congr 4
    funext i
    ring
  | some (a1, a2), ⟨two, third, cut, h⟩ =>
    obtain ⟨-, -, -, hone, -⟩ := split_spec two third cut a1 a2 h.symm
    simp only [marg, marg2]
    rw [← integral_sub_right_eq_self (fun t => ∫ u : ℝ, exp (-chi2 m (fun i => x i - t * a1 i - u * a2 i) / 2)) k]
    congr 1
    funext t
    rw [← integral_sub_right_eq_self (fun u => exp (-chi2 m (fun i => x i - (t - k) * a1 i - u * a2 i) / 2)) k]
    congr 1
    funext u
    congr 4
    funext i
    have := hone i
    linear_combination (-k) * this

/-- The likelihood does not depend on the estimate of the magnitude that is subtracted first. -/
theorem likeOf_shift (sp : Option ((Fin n → ℝ) × (Fin n → ℝ))) (hsp : IsSplit sp) (m : Matrix (Fin n) (Fin n) ℝ) (hm : m.PosDef) (hn : 0 < n)
    (x : Fin n → ℝ) (k : ℝ) : likeOf sp m (fun i => x i + k) = likeOf sp m x := by
  have := likeOf_spec sp hsp m hm hn (fun i => x i + k)
  rw [marg_shift sp hsp, ← likeOf_spec sp hsp m hm hn x] at this
  have := exp_injective this
  linarith

/-- Example: one magnitude, three supernovae. -/
example (x : Fin 3 → ℝ) : likeOf none (2 • (1 : Matrix (Fin 3) (Fin 3) ℝ)) (fun i => x i + 19) = likeOf none (2 • 1) x := by
  refine likeOf_shift none ⟨false, 0, 0, by simp [split]⟩ _ ?_ (by norm_num) x 19
  have : (2 • (1 : Matrix (Fin 3) (Fin 3) ℝ)) = 1 + 1 := two_nsmul 1
  rw [this]
  exact PosDef.one.add PosDef.one

end Verif.SN
