import Verif.Props.Singles
import Mathlib.MeasureTheory.Measure.Lebesgue.Basic
import Mathlib.MeasureTheory.Integral.Lebesgue.Add

/-!
# The chance that a sample is chosen

`R i` is the number drawn for row `i`: any random variable that is uniform on the interval from 0 to 1, as numpy documents.  Independence is not needed.
-/

namespace Verif.Singles
open Verif.Py Verif.Py.Np MeasureTheory Set
set_option linter.unusedSectionVars false
set_option linter.unusedVariables false

/-- uniformly distributed on `[0, 1)` -/
structure Uniform {Ω : Type} [MeasurableSpace Ω] (μ : Measure Ω) (R : Ω → ℝ) : Prop where
  meas : Measurable R
  law : μ.map R = volume.restrict (Ico 0 1)

theorem uniform_le {Ω : Type} [MeasurableSpace Ω] {μ : Measure Ω} {R : Ω → ℝ} (h : Uniform μ R) {p : ℝ} (h0 : 0 ≤ p) (h1 : p ≤ 1) :
    μ {ω | R ω ≤ p} = ENNReal.ofReal p := by
  have e : {ω | R ω ≤ p} = R ⁻¹' Iic p := rfl
  rw [e, ← Measure.map_apply h.meas measurableSet_Iic, h.law, Measure.restrict_apply measurableSet_Iic]
  rcases h1.lt_or_eq with h2 | h2
  · have : Iic p ∩ Ico 0 1 = Icc 0 p := by
      ext x
      simp only [mem_inter_iff, mem_Iic, mem_Ico, mem_Icc]
      constructor
      · exact fun h => ⟨h.2.1, h.1⟩
      · exact fun h => ⟨h.2, h.1, lt_of_le_of_lt h.2 h2⟩
    rw [this, Real.volume_Icc, sub_zero]
  · have : Iic p ∩ Ico 0 1 = Ico 0 1 := by
      ext x
      simp only [mem_inter_iff, mem_Iic, mem_Ico]
      constructor
      · exact fun h => h.2
      · exact fun h => ⟨by rw [h2]; exact h.2.le, h⟩
    rw [this, Real.volume_Ico, h2, sub_zero]

section
variable {Ω : Type} [MeasurableSpace Ω] {μ : Measure Ω} (w : List ℝ) (R : Fin w.length → Ω → ℝ)

/-- the numbers drawn -/
def draw (ω : Ω) : List ℝ := List.ofFn (fun i => R i ω)

theorem ratio_bounds {w : List ℝ} (hw : ∀ x ∈ w, 0 ≤ x) {m : ℝ} (hm : Greatest w m) (hp : 0 < m) {t : ℝ} (ht : 1 ≤ t) {x : ℝ} (hx : x ∈ w) :
    0 ≤ x / (m * t) ∧ x / (m * t) ≤ 1 := by
  have hmt : 0 < m * t := mul_pos hp (by linarith)
  refine ⟨div_nonneg (hw x hx) hmt.le, ?_⟩
  rw [div_le_one hmt]
  have := hm.2 x hx
  nlinarith

/-- the function as it is run on the numbers drawn -/
theorem draw_spec {w : List ℝ} {R : Fin w.length → Ω → ℝ} {m : ℝ} (hm : Greatest w m) {thin ms : Option ℝ} {t : ℝ} (h : Factor w m thin ms t) (ω : Ω) :
    ∃ ix, randomSingle (draw w R ω) w thin ms = .ok ix ∧ ix.Nodup ∧ (∀ i ∈ ix, i < w.length) ∧ ∀ i : Fin w.length, (i : Nat) ∈ ix ↔ R i ω ≤ w[i] / (m * t) := by
  obtain ⟨ix, h1, h2, h3, h4⟩ := random_spec (rand := draw w R ω) (by simp [draw]) hm h
  refine ⟨ix, h1, h2.imp (fun h => ne_of_lt h), h3, fun i => ?_⟩
  rw [h4 i i.2]
  simp [draw]

/-- **C128**: a row is chosen with probability its weight over the heaviest weight, over the thinning factor: in proportion to its weight. -/
theorem chosen_probability {w : List ℝ} {R : Fin w.length → Ω → ℝ} (hR : ∀ i, Uniform μ (R i)) (hw : ∀ x ∈ w, 0 ≤ x) {m : ℝ} (hm : Greatest w m) (hp : 0 < m)
    {thin ms : Option ℝ} {t : ℝ} (h : Factor w m thin ms t) (ht : 1 ≤ t) (i : Fin w.length) :
    μ {ω | ∃ ix, randomSingle (draw w R ω) w thin ms = .ok ix ∧ (i : Nat) ∈ ix} = ENNReal.ofReal (w[i] / (m * t)) := by
  have e : {ω | ∃ ix, randomSingle (draw w R ω) w thin ms = .ok ix ∧ (i : Nat) ∈ ix} = {ω | R i ω ≤ w[i] / (m * t)} := by
    ext ω
    simp only [Set.mem_ofPred_eq]
    obtain ⟨ix, h1, _, _, h2⟩ := draw_spec (R := R) hm h ω
    constructor
    · rintro ⟨ix', h1', hi⟩
      rw [h1] at h1'
      cases h1'
      exact (h2 i).mp hi
    · exact fun hi => ⟨ix, h1, (h2 i).mpr hi⟩
  rw [e]
  obtain ⟨b1, b2⟩ := ratio_bounds hw hm hp ht (List.getElem_mem i.2)
  exact uniform_le (hR i) b1 b2

/-- how many rows are chosen -/
noncomputable def howMany (w : List ℝ) (R : Fin w.length → Ω → ℝ) (thin ms : Option ℝ) (ω : Ω) : Nat :=
  match randomSingle (draw w R ω) w thin ms with
  | .ok ix => ix.length
  | .error _ => 0

theorem howMany_eq {w : List ℝ} {R : Fin w.length → Ω → ℝ} {m : ℝ} (hm : Greatest w m) {thin ms : Option ℝ} {t : ℝ} (h : Factor w m thin ms t) (ω : Ω) :
    (howMany w R thin ms ω : ENNReal) = ∑ i : Fin w.length, {ω | R i ω ≤ w[i] / (m * t)}.indicator (fun _ => (1 : ENNReal)) ω := by
  obtain ⟨ix, h1, h2, h3, h4⟩ := draw_spec (R := R) hm h ω
  unfold howMany
  rw [h1]
  dsimp only
  rw [← List.toFinset_card_of_nodup h2]
  classical
  have e : ix.toFinset = (Finset.univ.filter (fun i : Fin w.length => R i ω ≤ w[i] / (m * t))).image Fin.val := by
    ext j
    simp only [List.mem_toFinset, Finset.mem_image, Finset.mem_filter, Finset.mem_univ, true_and]
    constructor
    · intro hj
      exact ⟨⟨j, h3 j hj⟩, (h4 ⟨j, h3 j hj⟩).mp hj, rfl⟩
    · rintro ⟨i, hi, rfl⟩
      exact (h4 i).mpr hi
  rw [e, Finset.card_image_of_injective _ Fin.val_injective, Finset.card_filter]
  push_cast
  apply Finset.sum_congr rfl
  intro i _
  simp [indicator]

/-- **C128**: the mean number of rows chosen is the total weight over the heaviest weight, over the thinning factor. -/
theorem mean_number {w : List ℝ} {R : Fin w.length → Ω → ℝ} (hR : ∀ i, Uniform μ (R i)) (hw : ∀ x ∈ w, 0 ≤ x) {m : ℝ} (hm : Greatest w m) (hp : 0 < m)
    {thin ms : Option ℝ} {t : ℝ} (h : Factor w m thin ms t) (ht : 1 ≤ t) :
    ∫⁻ ω, (howMany w R thin ms ω : ENNReal) ∂μ = ENNReal.ofReal (w.sum / (m * t)) := by
  have hms : ∀ i : Fin w.length, MeasurableSet {ω | R i ω ≤ w[i] / (m * t)} := fun i => (hR i).meas measurableSet_Iic
  simp_rw [howMany_eq hm h]
  rw [lintegral_finsetSum _ (fun i _ => measurable_const.indicator (hms i))]
  have e : ∀ i : Fin w.length, ∫⁻ ω, {ω | R i ω ≤ w[i] / (m * t)}.indicator (fun _ => (1 : ENNReal)) ω ∂μ = ENNReal.ofReal (w[i] / (m * t)) := by
    intro i
    rw [lintegral_indicator (hms i), setLIntegral_const, one_mul]
    obtain ⟨b1, b2⟩ := ratio_bounds hw hm hp ht (List.getElem_mem i.2)
    exact uniform_le (hR i) b1 b2
  rw [Finset.sum_congr rfl (fun i _ => e i), ← ENNReal.ofReal_sum_of_nonneg]
  · congr 1
    rw [← Finset.sum_div]
    congr 1
    exact Fin.sum_univ_getElem w
  · intro i _
    exact (ratio_bounds hw hm hp ht (List.getElem_mem i.2)).1

/-- **C128**: asked for at most `c` samples, the mean number is the smaller of `c` and the number that can be had without thinning. -/
theorem mean_limited {w : List ℝ} {R : Fin w.length → Ω → ℝ} (hR : ∀ i, Uniform μ (R i)) (hw : ∀ x ∈ w, 0 ≤ x) {m : ℝ} (hm : Greatest w m) (hp : 0 < m)
    {c : ℝ} (hc : 0 < c) : ∫⁻ ω, (howMany w R none (some c) ω : ENNReal) ∂μ = ENNReal.ofReal (min c (w.sum / m)) := by
  rw [mean_number hR hw hm hp Factor.limited (le_max_left _ _)]
  congr 1
  have hs : 0 < w.sum := lt_of_lt_of_le hp (List.single_le_sum hw m hm.1)
  rcases le_total (w.sum / m / c) 1 with h | h
  · rw [max_eq_left h, mul_one, min_eq_right]
    rwa [div_le_one hc] at h
  · rw [max_eq_right h, min_eq_left]
    · field_simp
    · rwa [le_div_iff₀ hc, one_mul] at h

end

/-- the identity on the interval is uniform, so the hypotheses can be met -/
example : Uniform (volume.restrict (Ico (0 : ℝ) 1)) id := ⟨measurable_id, Measure.map_id⟩

example : ∫⁻ ω : ℝ, (howMany [1, 2, 1] (fun _ => id) none (some 1) ω : ENNReal) ∂(volume.restrict (Ico (0 : ℝ) 1)) = ENNReal.ofReal 1 := by
  rw [mean_limited (m := 2) (fun _ => ⟨measurable_id, Measure.map_id⟩) (by intro x hx; fin_cases hx <;> norm_num) ⟨by simp, by intro x hx; fin_cases hx <;> norm_num⟩
    (by norm_num) (by norm_num)]
  norm_num

end Verif.Singles
