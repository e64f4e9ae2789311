import Verif.Model.GaussMix
import Verif.Lemmas.Gauss
import Mathlib.Probability.Distributions.Gaussian.Real

/-!
# Gaussian mixtures are the distributions they say
-/

namespace Verif.GaussMix
open Verif.Py Matrix Real MeasureTheory

set_option linter.unusedSectionVars false

/-! ### weights -/

theorem make_spec {d : Nat} (means : List (Fin d → ℝ)) (covs : List (Matrix (Fin d) (Fin d) ℝ)) (weights : Option (List ℝ))
    (lims : Option (List Lim)) (names : Option (List Str)) (M : Mix d) (h : make means covs weights lims names = .ok M) :
    M.means = means ∧ M.covs = covs ∧ M.lims = lims ∧ M.weights.length = means.length ∧ M.weights.sum = 1 ∧
    (∀ w, weights = some w → 0 < w.sum ∧ M.weights = w.map (· / w.sum)) ∧
    (weights = none → ∀ x ∈ M.weights, x = 1 / (means.length : ℝ)) ∧
    (∀ n, names = some n → M.names = n) := by
  unfold make at h
  split at h
  · cases h
  rename_i hne
  split at h
  · cases h
  simp only at h
  split at h
  · cases h
  rename_i hs
  split at h
  · cases h
  rename_i hl
  rw [not_not] at hl
  rw [not_le] at hs
  injection h with h
  subst h
  refine ⟨rfl, rfl, rfl, by simpa using hl, ?_, ?_, ?_, ?_⟩
  · show (List.map (fun x => x / _) _).sum = 1
    generalize weights.getD _ = w at hs
    simp only [div_eq_mul_inv]
    rw [List.sum_map_mul_right, List.map_id', mul_inv_cancel₀ hs.ne']
  · rintro w rfl
    exact ⟨hs, rfl⟩
  · rintro rfl x hx
    have hn : (means.length : ℝ) ≠ 0 := by
      rw [Nat.cast_ne_zero]
      exact fun e => hne (List.length_eq_zero_iff.mp e)
    simp only [Option.getD_none, List.mem_map] at hx
    obtain ⟨y, hy, rfl⟩ := hx
    rw [List.eq_of_mem_replicate hy, List.sum_replicate]
    simp only [nsmul_eq_mul]
    field_simp
  · rintro n rfl; rfl

example : ∀ M : Mix 1, make [![0], ![5]] [1, 1] (some [1, 3]) none none = .ok M → M.weights = [1 / 4, 3 / 4] := by
  intro M h
  obtain ⟨-, -, -, -, -, hw, -⟩ := make_spec _ _ _ _ _ M h
  rw [(hw _ rfl).2]
  norm_num

/-- Weights that do not add up to a positive number are refused, and so are singular covariances. -/
theorem make_errors {d : Nat} (means : List (Fin d → ℝ)) (covs : List (Matrix (Fin d) (Fin d) ℝ)) (w : List ℝ)
    (lims : Option (List Lim)) (names : Option (List Str)) (M : Mix d) :
    (w.sum ≤ 0 → make means covs (some w) lims names ≠ .ok M) ∧
    ((∃ c ∈ covs, c.det = 0) → make means covs (some w) lims names ≠ .ok M) := by
  constructor
  · intro hw h
    have := ((make_spec _ _ _ _ _ _ h).2.2.2.2.2.1 w rfl).1
    linarith
  · intro hc h
    unfold make at h
    split at h
    · cases h
    · cases h

example (M : Mix 1) : make [![0], ![5]] [1, 1] (some [1, -1]) none none ≠ .ok M ∧ make [![0], ![5]] [1, 0] (some [1, 1]) none none ≠ .ok M :=
  ⟨(make_errors _ _ [1, -1] none none M).1 (by norm_num), (make_errors _ _ [1, 1] none none M).2 ⟨0, by simp, by simp⟩⟩

/-- All covariances are possible ones, and there is one for each mean. -/
def Proper {d : Nat} (M : Mix d) : Prop :=
  (∀ c ∈ M.covs, c.PosDef) ∧ M.covs.length = M.means.length ∧ M.weights.length = M.means.length ∧ M.weights.sum = 1

theorem make_proper {d : Nat} (means : List (Fin d → ℝ)) (covs : List (Matrix (Fin d) (Fin d) ℝ)) (weights : Option (List ℝ))
    (lims : Option (List Lim)) (names : Option (List Str)) (M : Mix d) (h : make means covs weights lims names = .ok M)
    (hc : ∀ c ∈ covs, c.PosDef) (hl : covs.length = means.length) : Proper M := by
  obtain ⟨h1, h2, -, h4, h5, -⟩ := make_spec _ _ _ _ _ _ h
  exact ⟨by rw [h2]; exact hc, by rw [h1, h2]; exact hl, by rw [h1]; exact h4, h5⟩

/-- a mixture of two components, used in the examples -/
noncomputable def exM : Mix 2 := { means := [![0, 0], ![1, 2]], covs := [1, (2 : ℝ) • 1], weights := [1 / 4, 3 / 4], lims := none, names := [c!"x", c!"y"] }

theorem exM_proper : Proper exM := by
  refine ⟨?_, rfl, rfl, by norm_num [exM]⟩
  intro c hc
  simp only [exM, List.mem_cons, List.not_mem_nil, or_false] at hc
  rcases hc with rfl | rfl
  · exact PosDef.one
  · exact PosDef.one.smul (by norm_num)

/-- such a mixture can be made -/
example : ∃ M, make [![0, 0], ![1, 2]] [1, (2 : ℝ) • (1 : Matrix (Fin 2) (Fin 2) ℝ)] (some [1, 3]) none (some [c!"x", c!"y"]) = .ok M ∧ Proper M := by
  have hd : ¬ ∃ c ∈ [1, (2 : ℝ) • (1 : Matrix (Fin 2) (Fin 2) ℝ)], c.det = 0 := by simp
  obtain ⟨M, h⟩ : ∃ M, make [![0, 0], ![1, 2]] [1, (2 : ℝ) • (1 : Matrix (Fin 2) (Fin 2) ℝ)] (some [1, 3]) none (some [c!"x", c!"y"]) = .ok M := by
    unfold make
    rw [if_neg (by simp), if_neg hd]
    dsimp only
    rw [if_neg (by norm_num), if_neg (by simp)]
    exact ⟨_, rfl⟩
  exact ⟨M, h, make_proper _ _ _ _ _ _ h exM_proper.1 rfl⟩

theorem comps_posDef {d : Nat} (M : Mix d) (h : Proper M) (c : Comp d) (hc : c ∈ M.comps) : c.2.1.PosDef := by
  have h1 := (List.of_mem_zip (show (c.1, c.2) ∈ _ from hc)).2
  have h2 := (List.of_mem_zip (show (c.2.1, c.2.2) ∈ _ from h1)).1
  exact h.1 _ h2

theorem comps_weights {d : Nat} (M : Mix d) (h : Proper M) : (M.comps.map fun c => c.2.2) = M.weights := by
  have hz : M.covs.length = M.weights.length := by rw [h.2.1, h.2.2.1]
  have : (M.comps.map fun c => c.2.2) = ((M.comps.map Prod.snd).map Prod.snd) := by
    rw [List.map_map]; rfl
  rw [this]
  unfold Mix.comps
  rw [List.map_snd_zip, List.map_snd_zip]
  · omega
  · rw [List.length_zip]; have := h.2.1; omega

/-! ### the density -/

theorem norm_eq {d : Nat} (c : Matrix (Fin d) (Fin d) ℝ) : norm c = √(2 * π) ^ Fintype.card (Fin d) * √c.det := by
  unfold norm
  congr 1
  rw [Fintype.card_fin, sqrt_eq_rpow, ← rpow_natCast, ← rpow_mul (by positivity)]

/-- A component is the normal distribution with its mean and covariance. -/
theorem density_eq {d : Nat} (mean : Fin d → ℝ) (cov : Matrix (Fin d) (Fin d) ℝ) (x : Fin d → ℝ) :
    density mean cov x = Gauss.normal cov (x - mean) := by
  unfold density Gauss.normal
  rw [norm_eq, dotProduct_comm]

example : density ![1, 2] (1 : Matrix (Fin 2) (Fin 2) ℝ) ![1, 2] = 1 / (2 * π) := by
  simp [density, norm]

/-- The values for several points are those for each point. -/
theorem pdfRows_spec {d : Nat} (M : Mix d) (xs : List (Fin d → ℝ)) : pdfRows M xs = xs.map (pdf M) := by
  unfold pdfRows pdf
  refine List.map_congr_left fun x _ => ?_
  congr 1
  refine List.map_congr_left fun c _ => ?_
  unfold densityRow density
  congr 5
  simp only [dotProduct, mulVec, Pi.sub_apply, Finset.sum_mul]
  exact Finset.sum_congr rfl fun i _ => Finset.sum_congr rfl fun j _ => by ring

example : pdfRows exM [![0, 0], ![1, 2]] = [pdf exM ![0, 0], pdf exM ![1, 2]] := pdfRows_spec exM _

/-- The density of two parameters is the general one. -/
theorem pdf2_spec (M : Mix 2) (h : Proper M) (x y : ℝ) : pdf2 M x y = pdf M ![x, y] := by
  unfold pdf2 pdf
  congr 1
  refine List.map_congr_left fun c hc => ?_
  unfold density
  have hs := (comps_posDef M h c hc).inv.isHermitian.apply 0 1
  simp only [star_trivial] at hs
  simp only [dotProduct, mulVec, Fin.sum_univ_two, Pi.sub_apply, cons_val_zero, cons_val_one]
  congr 4
  rw [hs]
  ring

example : pdf2 exM 1 2 = pdf exM ![1, 2] := pdf2_spec exM exM_proper 1 2

theorem pdf_pos {d : Nat} (M : Mix d) (h : Proper M) (hw : ∀ w ∈ M.weights, 0 ≤ w) (x : Fin d → ℝ) : 0 ≤ pdf M x := by
  unfold pdf
  refine List.sum_nonneg fun t ht => ?_
  obtain ⟨c, hc, rfl⟩ := List.mem_map.mp ht
  have := comps_posDef M h c hc
  have hcw : c.2.2 ∈ M.weights := by
    rw [← comps_weights M h]; exact List.mem_map.mpr ⟨c, hc, rfl⟩
  rw [density_eq]
  exact mul_nonneg (Gauss.normal_pos _ this _).le (hw _ hcw)

example : 0 ≤ pdf exM ![3, -1] := pdf_pos exM exM_proper (by intro w hw; simp only [exM, List.mem_cons, List.not_mem_nil, or_false] at hw; rcases hw with rfl | rfl <;> norm_num) _

/-- integrals of sums over the components -/
theorem integral_comps {α : Type} [MeasurableSpace α] (μ : Measure α) {β : Type} (l : List β) (f : β → α → ℝ)
    (hf : ∀ c ∈ l, Integrable (f c) μ) :
    Integrable (fun x => (l.map fun c => f c x).sum) μ ∧ ∫ x, (l.map fun c => f c x).sum ∂μ = (l.map fun c => ∫ x, f c x ∂μ).sum := by
  induction l with
  | nil => simp
  | cons c l ih =>
    obtain ⟨h1, h2⟩ := ih fun c hc => hf c (List.mem_cons_of_mem _ hc)
    have h0 := hf c List.mem_cons_self
    simp only [List.map_cons, List.sum_cons]
    exact ⟨h0.add h1, by rw [integral_add h0 h1, h2]⟩

/-- The density of the mixture is a density: its integral is one. -/
theorem pdf_integral {d : Nat} (M : Mix d) (h : Proper M) : ∫ x, pdf M x = 1 := by
  unfold pdf
  rw [(integral_comps volume M.comps (fun c x => density c.1 c.2.1 x * c.2.2) ?_).2]
  · rw [← h.2.2.2, ← comps_weights M h]
    congr 1
    refine List.map_congr_left fun c hc => ?_
    simp_rw [density_eq]
    rw [integral_mul_const, Gauss.integral_normal _ (comps_posDef M h c hc), one_mul]
  · intro c hc
    simp_rw [density_eq]
    exact (Gauss.integrable_normal _ (comps_posDef M h c hc) _).mul_const _

example : ∫ x, pdf exM x = 1 := pdf_integral exM exM_proper

/-! ### integrating out parameters -/

/-- the point with the given values of some parameters and of the other ones -/
noncomputable def glue {d m : Nat} (idx : Fin m → Fin d) (x : Fin m → ℝ) (y : {j // j ∉ Set.range idx} → ℝ) : Fin d → ℝ :=
  open Classical in fun j => if h : j ∈ Set.range idx then x (Classical.choose h) else y ⟨j, h⟩

theorem glue_in {d m : Nat} (idx : Fin m → Fin d) (hi : Function.Injective idx) (x : Fin m → ℝ) (y : {j // j ∉ Set.range idx} → ℝ)
    (k : Fin m) : glue idx x y (idx k) = x k := by
  unfold glue
  rw [dif_pos ⟨k, rfl⟩]
  congr 1
  exact hi (Classical.choose_spec (⟨k, rfl⟩ : idx k ∈ Set.range idx))

theorem glue_out {d m : Nat} (idx : Fin m → Fin d) (x : Fin m → ℝ) (y : {j // j ∉ Set.range idx} → ℝ)
    (j : {j // j ∉ Set.range idx}) : glue idx x y j = y j := by
  unfold glue
  rw [dif_neg j.2]

open Classical in
theorem marginal_normal {d m : Nat} (idx : Fin m → Fin d) (hi : Function.Injective idx) (C : Matrix (Fin d) (Fin d) ℝ) (hC : C.PosDef)
    (mean : Fin d → ℝ) (x : Fin m → ℝ) :
    Integrable (fun y : {j // j ∉ Set.range idx} → ℝ => Gauss.normal C (glue idx x y - mean)) ∧
    ∫ y : {j // j ∉ Set.range idx} → ℝ, Gauss.normal C (glue idx x y - mean) =
      Gauss.normal (C.submatrix idx idx) (x - mean ∘ idx) := by
  let e : Fin m ⊕ {j // j ∉ Set.range idx} ≃ Fin d :=
    (Equiv.sumCongr (Equiv.ofInjective idx hi) (Equiv.refl _)).trans (Equiv.Set.sumCompl (Set.range idx))
  have he1 : ∀ k, e (Sum.inl k) = idx k := fun k => rfl
  have he2 : ∀ j, e (Sum.inr j) = j.1 := fun k => rfl
  have hCe : (C.submatrix e e).PosDef := hC.submatrix e.injective
  have hb : (C.submatrix e e).toBlocks₁₁ = C.submatrix idx idx := by
    ext i j; rfl
  have hg : ∀ y : {j // j ∉ Set.range idx} → ℝ, Gauss.normal C (glue idx x y - mean) =
      Gauss.normal (C.submatrix e e) (Sum.elim (x - mean ∘ idx) (y - fun j => mean j.1)) := by
    intro y
    rw [← Gauss.normal_reindex e]
    congr 1
    funext s
    rcases s with k | j
    · simp [he1, glue_in idx hi]
    · simp [he2, glue_out]
  have hint := Gauss.integral_block (C.submatrix e e) hCe (x - mean ∘ idx) (fun j : {j // j ∉ Set.range idx} => mean j.1)
  rw [hb] at hint
  simp_rw [hg]
  refine ⟨?_, hint⟩
  by_contra hn
  rw [integral_undef hn] at hint
  exact (Gauss.normal_pos _ (hC.submatrix hi) _).ne hint

/-- the density of some parameters: all others integrated out -/
noncomputable def Marginal {d m : Nat} (M : Mix d) (idx : Fin m → Fin d) (x : Fin m → ℝ) : ℝ :=
  ∫ y : {j // j ∉ Set.range idx} → ℝ, pdf M (glue idx x y)

theorem marginal_sum {d m : Nat} (M : Mix d) (h : Proper M) (idx : Fin m → Fin d) (hi : Function.Injective idx) (x : Fin m → ℝ) :
    Marginal M idx x = (M.comps.map fun c => density (c.1 ∘ idx) (c.2.1.submatrix idx idx) x * c.2.2).sum := by
  unfold Marginal pdf
  rw [(integral_comps volume M.comps (fun c y => density c.1 c.2.1 (glue idx x y) * c.2.2) ?_).2]
  · congr 1
    refine List.map_congr_left fun c hc => ?_
    simp_rw [density_eq]
    rw [integral_mul_const, (marginal_normal idx hi _ (comps_posDef M h c hc) _ _).2]
  · intro c hc
    simp_rw [density_eq]
    exact (marginal_normal idx hi _ (comps_posDef M h c hc) _ _).1.mul_const _

example (x : ℝ) : Marginal exM ![1] ![x] = density ![0] 1 ![x] * (1 / 4) + density ![2] ((2 : ℝ) • 1) ![x] * (3 / 4) := by
  rw [marginal_sum exM exM_proper ![1] (Function.injective_of_subsingleton _)]
  have e (c : ℝ) : ((c • (1 : Matrix (Fin 2) (Fin 2) ℝ)).submatrix ![1] ![1] : Matrix (Fin 1) (Fin 1) ℝ) = c • 1 := by
    ext i j; fin_cases i; fin_cases j; simp
  have e1 := e 1
  rw [one_smul, one_smul] at e1
  have m (a b : ℝ) : (![a, b] ∘ ![1] : Fin 1 → ℝ) = ![b] := by ext i; fin_cases i; rfl
  simp only [exM, Mix.comps, List.zip_cons_cons, List.zip_nil_left, List.map_cons, List.map_nil, List.sum_cons, List.sum_nil, add_zero]
  rw [e1, e, m, m]

theorem density1_eq {d : Nat} (mean : Fin d → ℝ) (cov : Matrix (Fin d) (Fin d) ℝ) (hc : cov.PosDef) (i : Fin d) (x : ℝ) :
    density1 mean cov i x = density (mean ∘ fun _ : Fin 1 => i) (cov.submatrix (fun _ : Fin 1 => i) fun _ => i) fun _ => x := by
  have hp : 0 < cov i i := hc.diag_pos
  unfold density1 density
  rw [norm_eq]
  have hd : (cov.submatrix (fun _ : Fin 1 => i) fun _ => i).det = cov i i := by simp
  rw [hd, Fintype.card_fin, pow_one, sqrt_mul (by positivity)]
  congr 3
  have hinv : (cov.submatrix (fun _ : Fin 1 => i) fun _ : Fin 1 => i)⁻¹ = Matrix.of fun _ _ : Fin 1 => (cov i i)⁻¹ := by
    apply inv_eq_left_inv
    ext a b
    fin_cases a; fin_cases b
    simp [mul_apply, hp.ne']
  rw [hinv]
  simp [dotProduct, mulVec]
  field_simp

/-- The density of one parameter is the integral of the whole density over all others. -/
theorem marged_spec {d : Nat} (M : Mix d) (h : Proper M) (i : Fin d) (x : ℝ) :
    marged M i x = Marginal M (fun _ : Fin 1 => i) fun _ => x := by
  rw [marginal_sum M h _ fun a b _ => Subsingleton.elim a b]
  unfold marged
  congr 1
  refine List.map_congr_left fun c hc => ?_
  rw [density1_eq _ _ (comps_posDef M h c hc)]

example : marged exM 1 7 = Marginal exM (fun _ : Fin 1 => 1) fun _ => 7 := marged_spec exM exM_proper 1 7

end Verif.GaussMix
