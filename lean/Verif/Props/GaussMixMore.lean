import Verif.Props.GaussMixOps

/-!
# Gaussian mixtures: moments, ranges, special cases, random samples, and what fails
-/

namespace Verif.GaussMix
open Verif.Py Matrix Real MeasureTheory ProbabilityTheory

set_option linter.unusedSectionVars false

/-! ### moments -/

theorem density1_gaussian {d : Nat} (mean : Fin d → ℝ) (cov : Matrix (Fin d) (Fin d) ℝ) {i : Fin d} (hc : 0 < cov i i) (x : ℝ) :
    density1 mean cov i x = gaussianPDFReal (mean i) (cov i i).toNNReal x := by
  unfold density1 gaussianPDFReal
  rw [Real.coe_toNNReal _ hc.le, div_eq_inv_mul]
  congr 2
  field_simp

theorem mean_density1 {d : Nat} (mean : Fin d → ℝ) (cov : Matrix (Fin d) (Fin d) ℝ) (i : Fin d) (hc : 0 < cov i i) :
    Integrable (fun x => x * density1 mean cov i x) ∧ ∫ x, x * density1 mean cov i x = mean i := by
  have hv : (cov i i).toNNReal ≠ 0 := by
    rw [ne_eq, Real.toNNReal_eq_zero, not_le]; exact hc
  have h := integral_gaussianReal_eq_integral_smul (μ := mean i) hv (f := fun x => x)
  rw [integral_id_gaussianReal] at h
  have he : (fun x => x * density1 mean cov i x) = fun x => gaussianPDFReal (mean i) (cov i i).toNNReal x • x := by
    funext x
    rw [density1_gaussian _ _ hc, smul_eq_mul, mul_comm]
  rw [he]
  refine ⟨?_, h.symm⟩
  have hi : Integrable (fun x => x) (gaussianReal (mean i) (cov i i).toNNReal) :=
    (memLp_id_gaussianReal (μ := mean i) (v := (cov i i).toNNReal) 1).integrable (by norm_num)
  rw [gaussianReal_of_var_ne_zero _ hv] at hi
  rw [integrable_withDensity_iff_integrable_smul₀'] at hi
  · refine hi.congr ?_
    filter_upwards with x
    rw [toReal_gaussianPDF]
  · exact (measurable_gaussianPDF _ _).aemeasurable
  · filter_upwards with x
    exact gaussianPDF_lt_top

theorem zip_means {d : Nat} (M : Mix d) (h : Proper M) (i : Fin d) : totalMean M i = (M.comps.map fun c => c.1 i * c.2.2).sum := by
  unfold totalMean
  congr 1
  have : ∀ (m : List (Fin d → ℝ)) (c : List (Matrix (Fin d) (Fin d) ℝ)) (w : List ℝ), c.length = m.length → w.length = m.length →
      (w.zip m).map (fun p => p.1 * p.2 i) = (m.zip (c.zip w)).map fun c => c.1 i * c.2.2 := by
    intro m
    induction m with
    | nil => intro c w h1 h2; cases w <;> simp at h2 ⊢
    | cons a m ih =>
      intro c w h1 h2
      cases c with
      | nil => simp at h1
      | cons b c =>
        cases w with
        | nil => simp at h2
        | cons e w =>
          simp only [List.zip_cons_cons, List.map_cons, List.cons.injEq]
          exact ⟨mul_comm _ _, ih c w (by simpa using h1) (by simpa using h2)⟩
  exact this _ _ _ h.2.1 h.2.2.1

/-- The total mean is the mean of each parameter in the mixture. -/
theorem totalMean_spec {d : Nat} (M : Mix d) (h : Proper M) (i : Fin d) : ∫ x, x * marged M i x = totalMean M i := by
  rw [zip_means M h]
  unfold marged
  have he : ∀ x : ℝ, x * (M.comps.map fun c => density1 c.1 c.2.1 i x * c.2.2).sum =
      (M.comps.map fun c => x * density1 c.1 c.2.1 i x * c.2.2).sum := by
    intro x
    rw [← List.sum_map_mul_left]
    congr 1
    exact List.map_congr_left fun c _ => (mul_assoc _ _ _).symm
  simp_rw [he]
  rw [(integral_comps volume M.comps (fun c x => x * density1 c.1 c.2.1 i x * c.2.2) ?_).2]
  · congr 1
    refine List.map_congr_left fun c hc => ?_
    rw [integral_mul_const, (mean_density1 _ _ _ (comps_posDef M h c hc).diag_pos).2]
  · intro c hc
    exact (mean_density1 _ _ _ (comps_posDef M h c hc).diag_pos).1.mul_const _

example : ∫ x, x * marged exM 1 x = 3 / 2 := by
  rw [totalMean_spec exM exM_proper 1]
  norm_num [totalMean, exM]

/-! ### ranges -/

theorem stretch_some {d : Nat} (s : ℝ) (i : Fin d) (lim : Lim) (l : List ((Fin d → ℝ) × Matrix (Fin d) (Fin d) ℝ)) (a b : ℝ) :
    ∃ a' b', l.foldl (stretch s i lim) (some (a, b)) = some (a', b') ∧ a' ≤ a ∧ b ≤ b' ∧
      ∀ c ∈ l, a' ≤ c.1 i - s * √(c.2 i i) ∧ c.1 i + s * √(c.2 i i) ≤ b' ∧
        (∀ mn, lim.1 = some mn → mn + s * √(c.2 i i) ≤ b') ∧ (∀ mx, lim.2 = some mx → a' ≤ mx - s * √(c.2 i i)) := by
  induction l generalizing a b with
  | nil => exact ⟨a, b, rfl, le_rfl, le_rfl, fun c hc => by cases hc⟩
  | cons c l ih =>
    rw [List.foldl_cons]
    have hs : ∃ a1 b1, stretch s i lim (some (a, b)) c = some (a1, b1) ∧ a1 ≤ a ∧ b ≤ b1 ∧ a1 ≤ c.1 i - s * √(c.2 i i) ∧
        c.1 i + s * √(c.2 i i) ≤ b1 ∧ (∀ mn, lim.1 = some mn → mn + s * √(c.2 i i) ≤ b1) ∧
        (∀ mx, lim.2 = some mx → a1 ≤ mx - s * √(c.2 i i)) := by
      obtain ⟨l1, l2⟩ := lim
      refine ⟨_, _, rfl, min_le_right _ _, le_max_right _ _, ?_, ?_, ?_, ?_⟩
      · cases l2 with
        | none => exact min_le_left _ _
        | some mx => exact (min_le_left _ _).trans (min_le_left _ _)
      · cases l1 with
        | none => exact le_max_left _ _
        | some mn => exact (le_max_left _ _).trans (le_max_left _ _)
      · rintro mn rfl
        exact (le_max_right _ _).trans (le_max_left _ _)
      · rintro mx rfl
        exact (min_le_left _ _).trans (min_le_right _ _)
    obtain ⟨a1, b1, h1, h2, h3, h4, h5, h6, h7⟩ := hs
    obtain ⟨a', b', g1, g2, g3, g4⟩ := ih a1 b1
    refine ⟨a', b', by rw [h1, g1], g2.trans h2, h3.trans g3, ?_⟩
    intro c' hc'
    rcases List.mem_cons.mp hc' with rfl | hc'
    · exact ⟨g2.trans h4, h5.trans g3, fun mn e => (h6 mn e).trans g3, fun mx e => g2.trans (h7 mx e)⟩
    · exact g4 c' hc'

/-- The range of a parameter: a limit given is used; without limits the range holds every component to the number of standard
deviations asked for. -/
theorem autoRange_spec {d : Nat} (M : Mix d) (s : ℝ) (i : Fin d) (lim : Lim) (hne : M.means.zip M.covs ≠ []) :
    ∃ a b, autoRange M s i lim = (some a, some b) ∧ (∀ mn, lim.1 = some mn → a = mn) ∧ (∀ mx, lim.2 = some mx → b = mx) ∧
      (lim.1 = none → ∀ c ∈ M.means.zip M.covs, a ≤ c.1 i - s * √(c.2 i i)) ∧
      (lim.2 = none → ∀ c ∈ M.means.zip M.covs, c.1 i + s * √(c.2 i i) ≤ b) ∧
      (lim.2 = none → ∀ mn, lim.1 = some mn → ∀ c ∈ M.means.zip M.covs, mn + s * √(c.2 i i) ≤ b) ∧
      (lim.1 = none → ∀ mx, lim.2 = some mx → ∀ c ∈ M.means.zip M.covs, a ≤ mx - s * √(c.2 i i)) := by
  have hr : ∃ a b, (M.means.zip M.covs).foldl (stretch s i lim) none = some (a, b) ∧ ∀ c ∈ M.means.zip M.covs,
      a ≤ c.1 i - s * √(c.2 i i) ∧ c.1 i + s * √(c.2 i i) ≤ b ∧
        (∀ mn, lim.1 = some mn → mn + s * √(c.2 i i) ≤ b) ∧ (∀ mx, lim.2 = some mx → a ≤ mx - s * √(c.2 i i)) := by
    cases hz : M.means.zip M.covs with
    | nil => exact absurd hz hne
    | cons c l =>
      rw [List.foldl_cons]
      have h0 : ∃ a1 b1, stretch s i lim none c = some (a1, b1) ∧ a1 ≤ c.1 i - s * √(c.2 i i) ∧
          c.1 i + s * √(c.2 i i) ≤ b1 ∧ (∀ mn, lim.1 = some mn → mn + s * √(c.2 i i) ≤ b1) ∧
          (∀ mx, lim.2 = some mx → a1 ≤ mx - s * √(c.2 i i)) := by
        obtain ⟨l1, l2⟩ := lim
        refine ⟨_, _, rfl, ?_, ?_, ?_, ?_⟩
        · cases l2 with
          | none => exact le_rfl
          | some mx => exact min_le_left _ _
        · cases l1 with
          | none => exact le_rfl
          | some mn => exact le_max_left _ _
        · rintro mn rfl; exact le_max_right _ _
        · rintro mx rfl; exact min_le_right _ _
      obtain ⟨a1, b1, h1, h4, h5, h6, h7⟩ := h0
      obtain ⟨a', b', g1, g2, g3, g4⟩ := stretch_some s i lim l a1 b1
      refine ⟨a', b', by rw [h1, g1], ?_⟩
      intro c' hc'
      rcases List.mem_cons.mp hc' with rfl | hc'
      · exact ⟨g2.trans h4, h5.trans g3, fun mn e => (h6 mn e).trans g3, fun mx e => g2.trans (h7 mx e)⟩
      · exact g4 c' hc'
  obtain ⟨a, b, h1, h2⟩ := hr
  obtain ⟨l1, l2⟩ := lim
  cases l1 with
  | none =>
    cases l2 with
    | none =>
      refine ⟨a, b, by simp [autoRange, h1], by simp, by simp, fun _ c hc => (h2 c hc).1, fun _ c hc => (h2 c hc).2.1, by simp, by simp⟩
    | some mx =>
      refine ⟨a, mx, by simp [autoRange, h1], by simp, by simp, fun _ c hc => (h2 c hc).1, by simp, by simp, ?_⟩
      intro _ m hm c hc
      exact (h2 c hc).2.2.2 m hm
  | some mn =>
    cases l2 with
    | none =>
      refine ⟨mn, b, by simp [autoRange, h1], by simp, by simp, by simp, fun _ c hc => (h2 c hc).2.1, ?_, by simp⟩
      intro _ m hm c hc
      exact (h2 c hc).2.2.1 m hm
    | some mx => exact ⟨mn, mx, rfl, by simp, by simp, by simp, by simp, by simp, by simp⟩

example : ∃ a b, autoRange exM 3 1 (none, some 5) = (some a, some b) ∧ b = 5 ∧ a ≤ 0 - 3 ∧ a ≤ 5 - 3 * √2 := by
  obtain ⟨a, b, h, -, h2, h3, -, -, h6⟩ := autoRange_spec exM 3 1 (none, some 5) (by simp [exM])
  refine ⟨a, b, h, h2 5 rfl, ?_, ?_⟩
  · have := h3 rfl (![0, 0], 1) (by simp [exM]); simpa using this
  · have := h6 rfl 5 rfl (![1, 2], (2 : ℝ) • 1) (by simp [exM]); simpa using this

/-- Arguments win over the limits of the mixture. -/
theorem updateLimits_spec (l : Lim × Lim) (a b c e : ℝ) :
    updateLimits l none none none none = l ∧ updateLimits l (some a) none none none = ((some a, l.1.2), l.2) ∧
    updateLimits l none (some b) none none = ((l.1.1, some b), l.2) ∧ updateLimits l none none (some c) none = (l.1, (some c, l.2.2)) ∧
    updateLimits l none none none (some e) = (l.1, (l.2.1, some e)) ∧ limits2 (some l) none none none none = l ∧
    limits2 none (some a) (some b) (some c) (some e) = ((some a, some b), (some c, some e)) :=
  ⟨rfl, rfl, rfl, rfl, rfl, rfl, rfl⟩

example : updateLimits ((some 0, none), (none, some 4)) none (some 2) (some 1) none = ((some 0, some 2), (some 1, some 4)) := rfl

/-! ### special cases -/

/-- Two standard deviations and a correlation make a possible covariance. -/
theorem make2DCov_posDef (sx sy corr : ℝ) (hx : sx ≠ 0) (hy : sy ≠ 0) (hc : |corr| < 1) : (make2DCov sx sy corr).PosDef := by
  have h1 : 0 < 1 - corr ^ 2 := by
    have := (sq_lt_one_iff_abs_lt_one corr).mpr hc
    linarith
  refine PosDef.of_dotProduct_mulVec_pos ?_ ?_
  · ext i j
    fin_cases i <;> fin_cases j <;> simp [make2DCov]
  · intro v hv
    have e : star v ⬝ᵥ make2DCov sx sy corr *ᵥ v = (sx * v 0 + corr * (sy * v 1)) ^ 2 + (1 - corr ^ 2) * (sy * v 1) ^ 2 := by
      simp [make2DCov, dotProduct, mulVec, Fin.sum_univ_two]
      ring
    rw [e]
    by_cases h : v 1 = 0
    · have h0 : v 0 ≠ 0 := by
        intro h0
        apply hv
        funext i
        fin_cases i
        · exact h0
        · exact h
      rw [h]
      have : sx * v 0 ≠ 0 := mul_ne_zero hx h0
      have := sq_pos_of_ne_zero this
      nlinarith
    · have : sy * v 1 ≠ 0 := mul_ne_zero hy h
      have := mul_pos h1 (sq_pos_of_ne_zero this)
      have := sq_nonneg (sx * v 0 + corr * (sy * v 1))
      linarith

example : (make2DCov 2 3 (1 / 2)).PosDef := make2DCov_posDef 2 3 (1 / 2) (by norm_num) (by norm_num) (by rw [abs_of_pos] <;> norm_num)

/-- Its elements: the squares of the standard deviations, and the correlation times both. -/
theorem make2DCov_spec (sx sy corr : ℝ) : make2DCov sx sy corr 0 0 = sx ^ 2 ∧ make2DCov sx sy corr 1 1 = sy ^ 2 ∧
    make2DCov sx sy corr 0 1 = corr * sx * sy ∧ make2DCov sx sy corr 1 0 = corr * sx * sy := by
  simp [make2DCov]
  ring

example : make2DCov 2 3 (1 / 2) = !![4, 3; 3, 9] := by norm_num [make2DCov]

/-- An inverse covariance is used as such. -/
theorem gaussianND_inv {d : Nat} (mean : Fin d → ℝ) (P : Matrix (Fin d) (Fin d) ℝ) (hP : P.PosDef) (lims : Option (List Lim))
    (names : Option (List Str)) (M : Mix d) (h : gaussianND mean P true lims names = .ok M) (x : Fin d → ℝ) :
    pdf M x = exp (-((x - mean) ⬝ᵥ P *ᵥ (x - mean)) / 2) * √P.det / √(2 * π) ^ d := by
  unfold gaussianND at h
  rw [if_pos rfl, if_neg hP.det_pos.ne'] at h
  obtain ⟨e1, e2, -, -, -, -, e7, -⟩ := make_spec _ _ _ _ _ _ h
  have hw : M.comps = [(mean, P⁻¹, 1)] := by
    obtain ⟨-, -, -, h4, h5, -⟩ := make_spec _ _ _ _ _ _ h
    obtain ⟨a, ha⟩ := List.length_eq_one_iff.mp (by simpa using h4)
    rw [ha] at h5
    have : a = 1 := by simpa using h5
    unfold Mix.comps
    rw [e1, e2, ha, this]
    rfl
  have hu : IsUnit P.det := by rw [isUnit_iff_ne_zero]; exact hP.det_pos.ne'
  unfold pdf
  rw [hw]
  simp only [List.map_cons, List.map_nil, List.sum_cons, List.sum_nil, add_zero, mul_one]
  rw [density_eq]
  unfold Gauss.normal
  rw [nonsing_inv_nonsing_inv _ hu, det_nonsing_inv, Ring.inverse_eq_inv, sqrt_inv, Fintype.card_fin]
  have := hP.det_pos
  have := pi_pos
  field_simp

example (M : Mix 1) (h : gaussianND ![1] ((4 : ℝ) • 1) true none none = .ok M) : pdf M ![1] = 2 / √(2 * π) := by
  rw [gaussianND_inv _ _ (PosDef.one.smul (by norm_num)) _ _ M h]
  have : √(4 : ℝ) = 2 := by rw [show (4 : ℝ) = 2 ^ 2 by norm_num]; exact Real.sqrt_sq (by norm_num)
  simp [this]

/-- One parameter: the sum of normal distributions with the given means and standard deviations. -/
theorem mixture1D_spec (means sigmas : List ℝ) (weights : Option (List ℝ)) (lims : Option Lim) (xmin xmax : Option ℝ) (name : Str)
    (M : Mix 1) (h : mixture1D means sigmas weights lims xmin xmax name = .ok M) (hs : ∀ s ∈ sigmas, s ≠ 0) (x : ℝ) :
    marged M 0 x = ((means.zip (sigmas.zip M.weights)).map fun p => gaussianPDFReal p.1 (p.2.1 ^ 2).toNNReal x * p.2.2).sum := by
  obtain ⟨e1, e2, -, -, -, -, -, -⟩ := make_spec _ _ _ _ _ _ h
  unfold marged Mix.comps
  rw [e1, e2]
  conv_lhs => rw [← List.map_id M.weights, List.zip_map, List.zip_map, List.map_map]
  congr 1
  refine List.map_congr_left fun p hp => ?_
  have h1 := (List.of_mem_zip (show (p.1, p.2) ∈ _ from hp)).2
  have h2 := (List.of_mem_zip (show (p.2.1, p.2.2) ∈ _ from h1)).1
  simp only [Function.comp_apply, Prod.map, id]
  rw [density1_gaussian _ _ (by have := sq_pos_of_ne_zero (hs _ h2); exact this)]
  rfl

example (M : Mix 1) (h : mixture1D [0, 5] [1, 2] (some [1, 3]) none none none c!"x" = .ok M) (hw : M.weights = [1 / 4, 3 / 4]) (x : ℝ) :
    marged M 0 x = gaussianPDFReal 0 1 x * (1 / 4) + gaussianPDFReal 5 4 x * (3 / 4) := by
  rw [mixture1D_spec _ _ _ _ _ _ _ M h (by simp), hw]
  simp
  norm_num

/-- The density of one parameter is given at the points of its range; other parameters with limits are refused. -/
theorem density1D_spec {d : Nat} (M : Mix d) (p : Par) (num : Nat) (s : ℝ) (flag : Bool) (lin : Option ℝ → Option ℝ → Nat → List ℝ)
    (i : Fin d) (hi : resolve M p = .ok i) (hl : checkNoLimits M [i] = .ok ()) :
    density1D M p num s flag lin = .ok (lin (autoRange M s i (limOf M none i)).1 (autoRange M s i (limOf M none i)).2 num,
      (lin (autoRange M s i (limOf M none i)).1 (autoRange M s i (limOf M none i)).2 num).map (marged M i)) := by
  unfold density1D
  simp only [bind, Except.bind, hi, hl]
  cases flag <;> simp [checkUnless, hl]

example : ∃ l, density1D exM (.name c!"y") 3 5 false (fun _ _ _ => [0, 1, 2]) = .ok ([0, 1, 2], l) ∧ l = [marged exM 1 0, marged exM 1 1, marged exM 1 2] :=
  ⟨_, density1D_spec exM _ 3 5 false _ 1 (by decide) rfl, rfl⟩

/-- The limit asked for is the upper one of the parameter named. -/
theorem getUpper_spec {d : Nat} (M : Mix d) (l : List Lim) (hl : M.lims = some l) (i : Nat) (hi : i < M.names.length) (hn : M.names.Nodup)
    (lim : Lim) (hli : l[i]? = some lim) : getUpper M M.names[i] = .ok lim.2 := by
  unfold getUpper
  simp only [hl, if_pos (List.getElem_mem hi), hn.idxOf_getElem i hi, hli]

example : getUpper { exM with lims := some [(none, none), (some 0, some 9)] } c!"y" = .ok (some 9) :=
  getUpper_spec { exM with lims := some [(none, none), (some 0, some 9)] } _ rfl 1 (by decide) (by decide) _ rfl

/-! ### random samples -/

section sim

variable {V : Type} (coord : Nat → V → ℝ)

/-- inside all limits -/
def Inside (lims : List Lim) (x : V) : Prop :=
  ∀ (i : Nat) (lim : Lim), lims[i]? = some lim → (∀ mn, lim.1 = some mn → mn ≤ coord i x) ∧ (∀ mx, lim.2 = some mx → coord i x ≤ mx)

/-- Exactly the samples inside all limits are kept. -/
theorem cut_spec (lims : List Lim) (v : List V) (x : V) : x ∈ cut coord lims v ↔ x ∈ v ∧ Inside coord lims x := by
  have key : ∀ (l : List (Lim × Nat)) (v : List V), (x ∈ l.foldl (cutOne coord) v) ↔
      x ∈ v ∧ ∀ p ∈ l, (∀ mn, p.1.1 = some mn → mn ≤ coord p.2 x) ∧ (∀ mx, p.1.2 = some mx → coord p.2 x ≤ mx) := by
    intro l
    induction l with
    | nil => intro v; simp
    | cons p l ih =>
      intro v
      rw [List.foldl_cons, ih, List.forall_mem_cons, ← and_assoc]
      refine and_congr ?_ Iff.rfl
      obtain ⟨⟨l1, l2⟩, n⟩ := p
      cases l1 <;> cases l2 <;> simp [cutOne]
      exact fun _ => and_comm
  unfold cut
  rw [key]
  refine and_congr Iff.rfl ⟨fun h i lim hi => h (lim, i) (List.mem_zipIdx_iff_getElem?.mpr hi), fun h p hp => ?_⟩
  exact h p.2 p.1 (List.mem_zipIdx_iff_getElem?.mp hp)

example : (3 : ℝ) ∈ cut (fun _ x => x) [(some 0, some 5)] [3, 7, -1] ∧ (7 : ℝ) ∉ cut (fun _ x => x) [(some 0, some 5)] [3, 7, -1] := by
  norm_num [cut, cutOne]

theorem simLoop_spec (lims : Option (List Lim)) (size : Nat) (draw : Nat → Nat → List (List V)) (fuel r : Nat) (blk : Option Nat)
    (res out : List (List V)) (h : simLoop coord lims size draw fuel r blk res = some out)
    (hres : ∀ x ∈ res.flatten, (∃ r n v, v ∈ draw r n ∧ x ∈ v) ∧ ∀ l, lims = some l → Inside coord l x) :
    size ≤ out.flatten.length ∧ ∀ x ∈ out.flatten, (∃ r n v, v ∈ draw r n ∧ x ∈ v) ∧ ∀ l, lims = some l → Inside coord l x := by
  induction fuel generalizing r blk res with
  | zero => cases h
  | succ fuel ih =>
    unfold simLoop at h
    simp only at h
    have hnew : ∀ x ∈ (res ++ ((draw r (blk.getD size)).filter (!·.isEmpty)).map (cutAll coord lims)).flatten,
        (∃ r n v, v ∈ draw r n ∧ x ∈ v) ∧ ∀ l, lims = some l → Inside coord l x := by
      intro x hx
      rw [List.flatten_append, List.mem_append] at hx
      rcases hx with hx | hx
      · exact hres x hx
      · obtain ⟨w, hw, hxw⟩ := List.mem_flatten.mp hx
        obtain ⟨v, hv, rfl⟩ := List.mem_map.mp hw
        have hv' := (List.mem_filter.mp hv).1
        cases lims with
        | none => exact ⟨⟨_, _, v, hv', hxw⟩, fun l e => by cases e⟩
        | some l =>
          have := (cut_spec coord l v x).mp hxw
          exact ⟨⟨_, _, v, hv', this.1⟩, fun l' e => by cases e; exact this.2⟩
    split at h
    · rename_i hs
      injection h with h
      subst h
      refine ⟨?_, hnew⟩
      rw [List.length_flatten]
      exact hs
    · exact ih _ _ _ h hnew

/-- As many samples as asked for, each one drawn and inside the limits. -/
theorem sim_spec (lims : Option (List Lim)) (size : Nat) (draw : Nat → Nat → List (List V)) (perm : List V → List V)
    (hperm : ∀ l, (perm l).Perm l) (fuel : Nat) (out : List V) (h : sim coord lims size draw perm fuel = some out) :
    out.length = size ∧ ∀ x ∈ out, (∃ r n v, v ∈ draw r n ∧ x ∈ v) ∧ ∀ l, lims = some l → Inside coord l x := by
  unfold sim at h
  simp only [bind, Option.bind] at h
  cases h1 : simLoop coord lims size draw fuel 0 none [] with
  | none => rw [h1] at h; cases h
  | some res =>
    rw [h1] at h
    obtain ⟨h2, h3⟩ := simLoop_spec coord lims size draw fuel 0 none [] res h1 (by simp)
    simp only at h
    split at h
    · cases h
    have hp : (if 1 < res.length then perm res.flatten else res.flatten).Perm res.flatten := by
      split
      · exact hperm _
      · exact .refl _
    generalize (if 1 < res.length then perm res.flatten else res.flatten) = s at h hp
    have hlen := hp.length_eq
    split at h
    · injection h with h
      subst h
      refine ⟨by rw [List.length_take]; omega, fun x hx => h3 x (hp.mem_iff.mp (List.mem_of_mem_take hx))⟩
    · rename_i he
      injection h with h
      subst h
      exact ⟨not_not.mp he, fun x hx => h3 x (hp.mem_iff.mp hx)⟩

example (out : List ℝ) (h : sim (fun _ x => x) (some [(some 0, none)]) 3 (fun _ n => [List.replicate n 1, [-1]]) id 4 = some out) : out.length = 3 :=
  (sim_spec _ _ 3 _ id (fun _ => List.Perm.refl _) 4 out h).1

/-- More samples are always asked for, at most the bound. -/
theorem block_spec (size tot : Nat) : 1 ≤ block size tot ∧ block size tot ≤ max size 100000 := by
  unfold block
  constructor
  · refine le_min ?_ (Nat.le_add_left 1 _)
    exact le_trans (by norm_num) (le_max_right size 100000)
  · exact min_le_left _ _

example : block 1000 0 = 100000 ∧ block 1000 900 = 123 := by decide

/-- Unless bounded, the next block has, at the rate of samples inside the limits so far, just more than eleven tenths of the number still needed. -/
theorem block_rate (size tot : Nat) (ht : 0 < tot) (hb : block size tot < max size 100000) :
    11 * (size * (size - tot)) < 10 * (block size tot * tot) ∧ 10 * ((block size tot - 1) * tot) ≤ 11 * (size * (size - tot)) := by
  have hm : max tot 1 = tot := max_eq_left ht
  have h1 : block size tot = 11 * (size * (size - tot)) / 10 / tot + 1 := by
    unfold block at hb ⊢
    rw [hm] at hb ⊢
    rcases min_choice (max size 100000) (11 * (size * (size - tot)) / 10 / tot + 1) with h | h
    · rw [h] at hb; exact absurd hb (lt_irrefl _)
    · exact h
  rw [h1]
  generalize size * (size - tot) = X
  have h2 := Nat.div_add_mod (11 * X / 10) tot
  have h3 := Nat.mod_lt (11 * X / 10) ht
  have h4 := Nat.div_add_mod (11 * X) 10
  have h5 := Nat.mod_lt (11 * X) (by norm_num : 10 > 0)
  rw [Nat.add_sub_cancel, Nat.add_mul, Nat.one_mul, Nat.mul_comm (11 * X / 10 / tot) tot]
  constructor <;> omega

example : 11 * (1000 * (1000 - 900)) < 10 * (block 1000 900 * 900) ∧ 10 * ((block 1000 900 - 1) * 900) ≤ 11 * (1000 * (1000 - 900)) :=
  block_rate 1000 900 (by decide) (by decide)

/-- The loop ends if every round gives a sample inside the limits. -/
theorem simLoop_ends (lims : Option (List Lim)) (size : Nat) (draw : Nat → Nat → List (List V))
    (hd : ∀ r n, 1 ≤ n → ∃ v ∈ draw r n, ∃ x ∈ v, ∀ l, lims = some l → Inside coord l x) (fuel r : Nat) (blk : Option Nat)
    (hb : ∀ b, blk = some b → 1 ≤ b) (res : List (List V)) (h0 : 0 < fuel) (hf : size < fuel + res.flatten.length) :
    ∃ out, simLoop coord lims size draw fuel r blk res = some out := by
  induction fuel generalizing r blk res with
  | zero => omega
  | succ fuel ih =>
    unfold simLoop
    simp only
    split
    · exact ⟨_, rfl⟩
    · rename_i hs
      have hn : 1 ≤ blk.getD size := by
        cases blk with
        | none => simp only [Option.getD_none]; omega
        | some b => exact hb b rfl
      obtain ⟨v, hv, x, hx, hin⟩ := hd r _ hn
      have hx' : x ∈ (((draw r (blk.getD size)).filter (!·.isEmpty)).map (cutAll coord lims)).flatten := by
        refine List.mem_flatten.mpr ⟨_, List.mem_map.mpr ⟨v, List.mem_filter.mpr ⟨hv, ?_⟩, rfl⟩, ?_⟩
        · cases v with
          | nil => cases hx
          | cons a v => rfl
        · cases lims with
          | none => exact hx
          | some l => exact (cut_spec coord l v x).mpr ⟨hx, hin l rfl⟩
      have hlen := List.length_pos_of_mem hx'
      rw [← List.length_flatten, List.flatten_append, List.length_append] at hs
      apply ih
      · intro b e
        injection e with e
        subst e
        cases blk with
        | none => exact (block_spec _ _).1
        | some b => exact hb b rfl
      · omega
      · rw [List.flatten_append, List.length_append]
        omega

example : ∃ out, simLoop (fun _ x => x) (some [(some 0, none)]) 3 (fun _ n => [List.replicate n (1 : ℝ), [-1]]) 4 0 none [] = some out :=
  simLoop_ends _ _ 3 _ (fun _ n hn => ⟨_, List.mem_cons_self .., 1, by
    cases n with
    | zero => omega
    | succ m => exact ⟨List.mem_cons_self .., fun l hl => by
        cases hl
        intro i lim hi
        match i with
        | 0 => cases hi; exact ⟨fun _ h => by cases h; norm_num, fun _ h => by cases h⟩
        | i + 1 => simp at hi⟩⟩) 4 0 none (by simp) [] (by decide) (by decide)

end sim

end Verif.GaussMix
