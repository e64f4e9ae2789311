import Verif.Model.Scatter
import Mathlib.Analysis.SpecialFunctions.PolarCoord
import Mathlib.MeasureTheory.Integral.IntegralEqImproper
import Mathlib.MeasureTheory.Measure.Lebesgue.EqHaar
import Mathlib.MeasureTheory.Integral.Prod
import Mathlib.Analysis.SpecialFunctions.Gaussian.GaussianIntegral

/-!
# The contours that `add_2d_covariance` draws enclose 68 and 95 percent (`Verif/Model/Scatter.lean`)
-/

namespace Verif.Scatter
open MeasureTheory Set Real

/-! ## The density -/

/-- the covariance is positive definite -/
def PosDef (a b c : ℝ) : Prop := 0 < a ∧ 0 < a * c - b * b

theorem covLike_eq {a b c : ℝ} (h : PosDef a b c) (x y : ℝ) :
    covLike a b c x y = x ^ 2 / a + (a * y - b * x) ^ 2 / (a * (a * c - b * b)) := by
  obtain ⟨ha, hd⟩ := h
  unfold covLike
  generalize hD : a * c - b * b = D at hd ⊢
  field_simp
  rw [← hD]
  ring

/-- **C215**: the exponent is `vᵀ C⁻¹ v`: multiplying by the covariance gives back the vector -/
theorem covLike_inverse {a b c : ℝ} (h : PosDef a b c) (x y : ℝ) : ∃ u v, a * u + b * v = x ∧ b * u + c * v = y ∧
    covLike a b c x y = u * x + v * y := by
  obtain ⟨ha, hd⟩ := h
  unfold covLike
  generalize hD : a * c - b * b = D at hd ⊢
  refine ⟨(c * x - b * y) / D, (a * y - b * x) / D, ?_, ?_, ?_⟩
  · field_simp; rw [← hD]; ring
  · field_simp; rw [← hD]; ring
  · field_simp; ring

/-- **C215**: the density peaks at one at the mean, and only there -/
theorem covDensity_peak {a b c : ℝ} (h : PosDef a b c) (mx my x y : ℝ) :
    0 < covDensity mx my a b c x y ∧ covDensity mx my a b c x y ≤ 1 ∧ (covDensity mx my a b c x y = 1 ↔ x = mx ∧ y = my) := by
  have hl := covLike_eq h (x - mx) (y - my)
  obtain ⟨ha, hd⟩ := h
  have hd' : 0 < a * (a * c - b * b) := mul_pos ha hd
  have h1 : 0 ≤ (x - mx) ^ 2 / a := by positivity
  have h2 : 0 ≤ (a * (y - my) - b * (x - mx)) ^ 2 / (a * (a * c - b * b)) := div_nonneg (sq_nonneg _) hd'.le
  unfold covDensity
  refine ⟨exp_pos _, ?_, ?_⟩
  · rw [exp_le_one_iff]; linarith
  · rw [exp_eq_one_iff]
    constructor
    · intro h0
      have e1 : (x - mx) ^ 2 / a = 0 := by linarith
      have e2 : (a * (y - my) - b * (x - mx)) ^ 2 / (a * (a * c - b * b)) = 0 := by linarith
      rw [div_eq_zero_iff] at e1 e2
      have f1 : x - mx = 0 := by
        rcases e1 with e1 | e1
        · exact pow_eq_zero_iff (two_ne_zero) |>.mp e1
        · exact absurd e1 ha.ne'
      have f2 : a * (y - my) - b * (x - mx) = 0 := by
        rcases e2 with e2 | e2
        · exact pow_eq_zero_iff (two_ne_zero) |>.mp e2
        · exact absurd e2 hd'.ne'
      rw [f1, mul_zero, sub_zero] at f2
      have f3 : y - my = 0 := by
        rcases mul_eq_zero.mp f2 with h | h
        · exact absurd h ha.ne'
        · exact h
      exact ⟨by linarith, by linarith⟩
    · rintro ⟨rfl, rfl⟩
      unfold covLike; ring

example : 0 < covDensity 0 0 2 1 3 5 7 := (covDensity_peak (a := 2) (b := 1) (c := 3) (by constructor <;> norm_num) 0 0 5 7).1

/-! ## The mass inside a contour -/

/-- a function of the distance from the origin -/
theorem integral_radial (g : ℝ → ℝ) : ∫ p : ℝ × ℝ, g (p.1 ^ 2 + p.2 ^ 2) = 2 * π * ∫ r in Ioi (0 : ℝ), r * g (r ^ 2) := by
  rw [← integral_comp_polarCoord_symm (fun p : ℝ × ℝ => g (p.1 ^ 2 + p.2 ^ 2))]
  have h1 : ∀ p : ℝ × ℝ, p.1 • g ((polarCoord.symm p).1 ^ 2 + (polarCoord.symm p).2 ^ 2) = (p.1 * g (p.1 ^ 2)) * (1 : ℝ) := by
    intro p
    rw [polarCoord_symm_apply, smul_eq_mul, mul_one]
    dsimp only
    have : (p.1 * cos p.2) ^ 2 + (p.1 * sin p.2) ^ 2 = p.1 ^ 2 := by
      have := cos_sq_add_sin_sq p.2
      nlinarith
    rw [this]
  simp only [h1]
  rw [polarCoord_target, Measure.volume_eq_prod,
    setIntegral_prod_mul (fun r : ℝ => r * g (r ^ 2)) (fun _ : ℝ => (1 : ℝ)) (Ioi 0) (Ioo (-π) π)]
  rw [setIntegral_const, smul_eq_mul, mul_one, measureReal_def, Real.volume_Ioo, ENNReal.toReal_ofReal (by linarith [pi_pos])]
  ring

/-- the linear map that turns the unit circle into the ellipse of the covariance -/
noncomputable def whiten (a b c : ℝ) : (ℝ × ℝ) →ₗ[ℝ] (ℝ × ℝ) :=
  Matrix.toLin (Module.Basis.finTwoProd ℝ) (Module.Basis.finTwoProd ℝ) !![√a, 0; b / √a, √((a * c - b * b) / a)]

theorem whiten_apply (a b c : ℝ) (p : ℝ × ℝ) : whiten a b c p = (√a * p.1, b / √a * p.1 + √((a * c - b * b) / a) * p.2) := by
  unfold whiten
  rw [Matrix.toLin_finTwoProd_apply]
  simp

theorem whiten_det {a b c : ℝ} (h : PosDef a b c) : LinearMap.det (whiten a b c) = √(a * c - b * b) := by
  unfold whiten
  rw [LinearMap.det_toLin, Matrix.det_fin_two_of, zero_mul, sub_zero, ← Real.sqrt_mul h.1.le]
  congr 1
  have := h.1
  field_simp

theorem covLike_whiten {a b c : ℝ} (h : PosDef a b c) (p : ℝ × ℝ) :
    covLike a b c (whiten a b c p).1 (whiten a b c p).2 = p.1 ^ 2 + p.2 ^ 2 := by
  rw [covLike_eq h, whiten_apply]
  obtain ⟨ha, hd⟩ := h
  have hd2 : a * c - b ^ 2 ≠ 0 := by rw [pow_two]; exact hd.ne'
  have s1 : √a ^ 2 = a := Real.sq_sqrt ha.le
  have s2 : √((a * c - b * b) / a) ^ 2 = (a * c - b * b) / a := Real.sq_sqrt (div_nonneg hd.le ha.le)
  have hs : √a ≠ 0 := (Real.sqrt_pos.mpr ha).ne'
  dsimp only
  have e : a * (b / √a * p.1 + √((a * c - b * b) / a) * p.2) - b * (√a * p.1) = a * √((a * c - b * b) / a) * p.2 := by
    have : a * (b / √a * p.1) = b * (√a * p.1) := by
      have hh : a / √a = √a := by rw [div_eq_iff hs, ← pow_two, s1]
      calc a * (b / √a * p.1) = a / √a * b * p.1 := by ring
        _ = b * (√a * p.1) := by rw [hh]; ring
    linarith
  rw [e, mul_pow, mul_pow, mul_pow, s1, s2]
  field_simp

/-- a function of the exponent, over the plane -/
theorem integral_covLike {a b c : ℝ} (h : PosDef a b c) (mx my : ℝ) (g : ℝ → ℝ) (hg : Measurable g) :
    ∫ p : ℝ × ℝ, g (covLike a b c (p.1 - mx) (p.2 - my)) = √(a * c - b * b) * (2 * π * ∫ r in Ioi (0 : ℝ), r * g (r ^ 2)) := by
  have ht : ∫ p : ℝ × ℝ, g (covLike a b c (p.1 - mx) (p.2 - my)) = ∫ p : ℝ × ℝ, g (covLike a b c p.1 p.2) :=
    integral_sub_right_eq_self (fun p : ℝ × ℝ => g (covLike a b c p.1 p.2)) (mx, my)
  have hdet := whiten_det h
  have hsd : 0 < √(a * c - b * b) := Real.sqrt_pos.mpr h.2
  have hmap := Measure.map_linearMap_addHaar_eq_smul_addHaar (volume : Measure (ℝ × ℝ)) (f := whiten a b c) (by rw [hdet]; exact hsd.ne')
  have hmeas : Measurable (fun p : ℝ × ℝ => g (covLike a b c p.1 p.2)) := by
    apply hg.comp
    unfold covLike
    fun_prop
  have hlin : Measurable (whiten a b c) := (LinearMap.continuous_of_finiteDimensional (whiten a b c)).measurable
  have hint := integral_map (μ := (volume : Measure (ℝ × ℝ))) (φ := whiten a b c) hlin.aemeasurable
    (f := fun p : ℝ × ℝ => g (covLike a b c p.1 p.2)) hmeas.aestronglyMeasurable
  rw [hmap, integral_smul_measure] at hint
  simp only [covLike_whiten h] at hint
  rw [integral_radial, hdet, ENNReal.toReal_ofReal (abs_nonneg _), abs_inv, abs_of_pos hsd, smul_eq_mul] at hint
  rw [ht, ← hint, ← mul_assoc, mul_inv_cancel₀ hsd.ne', one_mul]

theorem deriv_gauss (x : ℝ) : HasDerivAt (fun r : ℝ => -exp (-(r ^ 2) / 2)) (x * exp (-(x ^ 2) / 2)) x := by
  have h1 : HasDerivAt (fun r : ℝ => -(r ^ 2) / 2) (-x) x := by
    have := ((hasDerivAt_pow 2 x).neg).div_const 2
    have e : -(((2 : ℕ) : ℝ) * x ^ (2 - 1)) / 2 = -x := by norm_num; ring
    rw [e] at this
    exact this
  have := h1.exp.neg
  have e : -(exp (-(x ^ 2) / 2) * -x) = x * exp (-(x ^ 2) / 2) := by ring
  rw [e] at this
  exact this

theorem integral_gauss_ball (t : ℝ) (ht : 0 ≤ t) : ∫ r in Ioi (0 : ℝ), r * (if r ^ 2 < t then exp (-(r ^ 2) / 2) else 0) = 1 - exp (-t / 2) := by
  have hset : ∀ r ∈ Ioi (0 : ℝ), r * (if r ^ 2 < t then exp (-(r ^ 2) / 2) else 0) = (Iio √t).indicator (fun r => r * exp (-(r ^ 2) / 2)) r := by
    intro r hr
    have hiff : r ^ 2 < t ↔ r ∈ Iio √t := by
      rw [mem_Iio, Real.lt_sqrt (le_of_lt hr)]
    by_cases h : r ^ 2 < t
    · rw [if_pos h, indicator_of_mem (hiff.mp h)]
    · rw [if_neg h, indicator_of_notMem (fun h' => h (hiff.mpr h')), mul_zero]
  rw [setIntegral_congr_fun measurableSet_Ioi hset, setIntegral_indicator measurableSet_Iio, Ioi_inter_Iio,
    ← integral_Ioc_eq_integral_Ioo, ← intervalIntegral.integral_of_le (Real.sqrt_nonneg t)]
  have hd : ∀ x ∈ uIcc 0 √t, HasDerivAt (fun r : ℝ => -exp (-(r ^ 2) / 2)) (x * exp (-(x ^ 2) / 2)) x := by
    intro x _
    exact deriv_gauss x
  rw [intervalIntegral.integral_eq_sub_of_hasDerivAt hd (by
    apply Continuous.intervalIntegrable
    fun_prop), Real.sq_sqrt ht]
  simp
  ring

theorem integral_gauss_all : ∫ r in Ioi (0 : ℝ), r * exp (-(r ^ 2) / 2) = 1 := by
  have hd : ∀ x ∈ Ici (0 : ℝ), HasDerivAt (fun r : ℝ => -exp (-(r ^ 2) / 2)) (x * exp (-(x ^ 2) / 2)) x := by
    intro x _
    exact deriv_gauss x
  have hi : IntegrableOn (fun x : ℝ => x * exp (-(x ^ 2) / 2)) (Ioi 0) := by
    have := integrable_mul_exp_neg_mul_sq (b := 1 / 2) (by norm_num)
    refine (this.congr ?_).integrableOn
    refine Filter.Eventually.of_forall (fun x => ?_)
    dsimp only
    congr 2; ring
  have ht : Filter.Tendsto (fun r : ℝ => -exp (-(r ^ 2) / 2)) Filter.atTop (nhds 0) := by
    rw [← neg_zero]
    apply Filter.Tendsto.neg
    apply Real.tendsto_exp_atBot.comp
    have : Filter.Tendsto (fun r : ℝ => r ^ 2 / 2) Filter.atTop Filter.atTop :=
      (Filter.tendsto_pow_atTop two_ne_zero).atTop_div_const (by norm_num)
    have := Filter.tendsto_neg_atTop_atBot.comp this
    refine this.congr (fun x => ?_)
    simp only [Function.comp]; ring
  rw [integral_Ioi_of_hasDerivAt_of_tendsto' hd hi ht]
  simp

/-- **C215**: for a positive definite covariance, the part of the density inside the contour of level `L` is `1 - L` of the whole -/
theorem contour_mass {a b c : ℝ} (h : PosDef a b c) (mx my L : ℝ) (h0 : 0 < L) (h1 : L ≤ 1) :
    (∫ p in {p : ℝ × ℝ | L < covDensity mx my a b c p.1 p.2}, covDensity mx my a b c p.1 p.2) =
      (1 - L) * ∫ p : ℝ × ℝ, covDensity mx my a b c p.1 p.2 := by
  have hall : ∫ p : ℝ × ℝ, covDensity mx my a b c p.1 p.2 = √(a * c - b * b) * (2 * π) := by
    have := integral_covLike h mx my (fun q => exp (-q / 2)) (by fun_prop)
    rw [integral_gauss_all, mul_one] at this
    exact this
  have hmeas : MeasurableSet {p : ℝ × ℝ | L < covDensity mx my a b c p.1 p.2} := by
    apply measurableSet_lt measurable_const
    unfold covDensity covLike
    fun_prop
  have hin : (∫ p in {p : ℝ × ℝ | L < covDensity mx my a b c p.1 p.2}, covDensity mx my a b c p.1 p.2) =
      √(a * c - b * b) * (2 * π * (1 - L)) := by
    rw [← integral_indicator hmeas]
    have ht : 0 ≤ -2 * log L := by have := log_nonpos h0.le h1; linarith
    have := integral_covLike h mx my (fun q => if q < -2 * log L then exp (-q / 2) else 0)
      (Measurable.ite measurableSet_Iio (by fun_prop) measurable_const)
    rw [integral_gauss_ball _ ht, show -(-2 * log L) / 2 = log L by ring, exp_log h0] at this
    rw [← this]
    congr 1
    funext p
    have hiff : L < covDensity mx my a b c p.1 p.2 ↔ covLike a b c (p.1 - mx) (p.2 - my) < -2 * log L := by
      unfold covDensity
      rw [← log_lt_iff_lt_exp h0]
      constructor <;> intro h' <;> linarith
    by_cases hp : L < covDensity mx my a b c p.1 p.2
    · rw [indicator_of_mem (s := {p : ℝ × ℝ | L < covDensity mx my a b c p.1 p.2}) hp, if_pos (hiff.mp hp)]; rfl
    · rw [indicator_of_notMem (s := {p : ℝ × ℝ | L < covDensity mx my a b c p.1 p.2}) hp, if_neg (fun h' => hp (hiff.mpr h'))]
  rw [hall, hin]
  ring

/-- **C215**: the contours drawn for a covariance enclose 68 and 95 percent of it -/
theorem covContours_mass {a b c : ℝ} (h : PosDef a b c) (mx my : ℝ) : covContours.map (fun L =>
      (∫ p in {p : ℝ × ℝ | L < covDensity mx my a b c p.1 p.2}, covDensity mx my a b c p.1 p.2) /
        ∫ p : ℝ × ℝ, covDensity mx my a b c p.1 p.2) = [0.68, 0.95] := by
  have hall : 0 < ∫ p : ℝ × ℝ, covDensity mx my a b c p.1 p.2 := by
    have := integral_covLike h mx my (fun q => exp (-q / 2)) (by fun_prop)
    rw [integral_gauss_all, mul_one] at this
    have hs : 0 < √(a * c - b * b) := Real.sqrt_pos.mpr h.2
    have : ∫ p : ℝ × ℝ, covDensity mx my a b c p.1 p.2 = √(a * c - b * b) * (2 * π) := this
    rw [this]; have := pi_pos; positivity
  unfold covContours
  simp only [List.map_cons, List.map_nil]
  rw [contour_mass h mx my 0.32 (by norm_num) (by norm_num), contour_mass h mx my 0.05 (by norm_num) (by norm_num),
    mul_div_assoc, div_self hall.ne', mul_div_assoc, div_self hall.ne']
  norm_num

/-- a covariance with correlation -/
example : PosDef 2 1 3 ∧ covLike 2 1 3 1 1 = 3 / 5 := by
  refine ⟨⟨by norm_num, by norm_num⟩, ?_⟩
  unfold covLike; norm_num

end Verif.Scatter
