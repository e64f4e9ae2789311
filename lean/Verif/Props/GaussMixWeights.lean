import Verif.Props.GaussMixOps
import Mathlib.Data.List.Nodup

/-!
# Gaussian mixtures: the weights for known parameters, and default names
-/

namespace Verif.GaussMix
open Verif.Py Matrix Real

/-- The inverse of the block of the inverse covariance is what the code calculates from the blocks of the covariance. -/
theorem schur_spec {d p q : Nat} (cov : Matrix (Fin d) (Fin d) ℝ) (hC : cov.PosDef) (f : Fin p → Fin d) (k : Fin q → Fin d)
    (hb : Function.Bijective (Sum.elim f k)) :
    (cov⁻¹.submatrix f f)⁻¹ = cov.submatrix f f - cov.submatrix f k * ((cov.submatrix k k)⁻¹ * cov.submatrix k f) := by
  set e := both f k hb
  have hP : (cov⁻¹.submatrix e e).PosDef := hC.inv.submatrix e.injective
  have hi : (cov⁻¹.submatrix e e)⁻¹ = cov.submatrix e e := by
    rw [inv_submatrix_equiv, nonsing_inv_nonsing_inv _ (by rw [isUnit_iff_ne_zero]; exact hC.det_pos.ne')]
  have h := (Gauss.blocks _ hP).2.2.2.1
  rw [hi, Matrix.mul_assoc] at h
  exact h

/-- **The weights for known parameters**: up to a common factor, the weight of a component is its density of the known parameters *when the others are at
their means*, whatever the weights were.  It should be the old weight times the density of the known parameters alone (see `cond_weights_fails` and
`cond_corr_fails`). -/
theorem conditional_weights_partial {d : Nat} (M : Mix d) (hM : Proper M) (fixed : List Par) (values : (p : Nat) → Fin p → ℝ)
    (r : (m : Nat) × Mix m) (h : conditional M fixed values = .ok r) :
    ∃ l, indices M (some fixed) = .ok l ∧ (l.Nodup → ∃ s : ℝ, 0 < s ∧ r.2.weights = M.comps.map fun c =>
      s * density (c.1 ∘ l.get) (c.2.1⁻¹.submatrix l.get l.get)⁻¹ (values l.length)) := by
  obtain ⟨l, h1, h2, h3, names, h4, R, hr, hm⟩ := conditional_ok M fixed values r h
  obtain ⟨-, -, -, -, -, e6, -, -⟩ := make_spec _ _ _ _ _ _ hm
  refine ⟨l, h1, fun hnd => ?_⟩
  obtain ⟨hs, hw⟩ := e6 _ rfl
  subst hr
  simp only
  rw [hw]
  set mn := minimum (M.comps.map fun c => condLog c.1 c.2.1 l.get (keepOf l).get (values l.length)) with hmn
  set S := ((M.comps.map fun c => condLog c.1 c.2.1 l.get (keepOf l).get (values l.length)).map fun g => exp (-(g - mn) / 2)).sum with hS
  set N : ℝ := (2 * π) ^ ((1 / 2 : ℝ) * (l.length : ℝ)) with hN
  have hNpos : 0 < N := rpow_pos_of_pos (by positivity) _
  refine ⟨exp (mn / 2) * N / S, by positivity, ?_⟩
  rw [List.map_map, List.map_map]
  refine List.map_congr_left fun c hc => ?_
  simp only [Function.comp]
  have hp := comps_posDef M hM c hc
  have hb := keep_bijective l hnd
  have hinj : Function.Injective l.get := List.nodup_iff_injective_get.mp hnd
  have hI : (c.2.1⁻¹.submatrix l.get l.get).PosDef := hp.inv.submatrix hinj
  have hD : 0 < ((c.2.1⁻¹.submatrix l.get l.get)⁻¹).det := hI.inv.det_pos
  have hsch := schur_spec c.2.1 hp l.get (keepOf l).get hb
  unfold density condLog norm
  rw [← hsch, nonsing_inv_nonsing_inv _ (by rw [isUnit_iff_ne_zero]; exact hI.det_pos.ne')]
  set Q := (c.2.1⁻¹.submatrix l.get l.get *ᵥ (values l.length - c.1 ∘ l.get)) ⬝ᵥ (values l.length - c.1 ∘ l.get)
  set D := ((c.2.1⁻¹.submatrix l.get l.get)⁻¹).det
  have e : exp (-(Q + log D - mn) / 2) = exp (mn / 2) * exp (-Q / 2) / √D := by
    rw [show -(Q + log D - mn) / 2 = mn / 2 + -Q / 2 - log D / 2 by ring, exp_sub, exp_add]
    congr 1
    rw [← log_sqrt hD.le, exp_log (sqrt_pos.mpr hD)]
  rw [e]
  have : √D ≠ 0 := (sqrt_pos.mpr hD).ne'
  have hS0 : S ≠ 0 := hs.ne'
  rw [← hN]
  field_simp

/-- **Default names** are `param1`, `param2`, ... -/
theorem defaultNames_spec (d i : Nat) (hi : i < d) : (defaultNames d)[i]? = some (c!"param" ++ (toString (i + 1)).toList) ∧ (defaultNames d).length = d := by
  simp [defaultNames, hi]

/-- A mixture made without names has them. -/
theorem make_names {d : Nat} (means : List (Fin d → ℝ)) (covs : List (Matrix (Fin d) (Fin d) ℝ)) (weights : Option (List ℝ)) (lims : Option (List Lim))
    (M : Mix d) (h : make means covs weights lims none = .ok M) (i : Nat) (hi : i < d) : M.names[i]? = some (c!"param" ++ (toString (i + 1)).toList) := by
  unfold make at h
  split at h
  · cases h
  split at h
  · cases h
  simp only at h
  split at h
  · cases h
  split at h
  · cases h
  · cases h
    exact (defaultNames_spec d i hi).1

example : defaultNames 3 = [c!"param1", c!"param2", c!"param3"] := by decide

end Verif.GaussMix
