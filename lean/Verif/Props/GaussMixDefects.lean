import Verif.Props.GaussMixMore

/-!
# Gaussian mixtures: what fails
-/

namespace Verif.GaussMix
open Verif.Py Matrix Real MeasureTheory

/-- The total covariance of a single normal distribution is not its covariance: the loop over the components also goes through the
elements of the total mean, and subtracts a number from the vector. -/
theorem totalCov_fails : ¬ ∀ (M : Mix 2) (mean : Fin 2 → ℝ) (cov : Matrix (Fin 2) (Fin 2) ℝ), M.means = [mean] → M.covs = [cov] →
    M.weights = [1] → totalCov M = cov := by
  intro h
  have := congrFun (congrFun (h { means := [![0, 1]], covs := [1], weights := [1], lims := none, names := [] } ![0, 1] 1 rfl rfl rfl) 1) 1
  simp [totalCov, totalMean, Mix.comps, List.ofFn_succ] at this

/-- Components after the number of parameters are not used for the total covariance. -/
theorem totalCov_short_fails : ¬ ∀ (M : Mix 1) (cov : Matrix (Fin 1) (Fin 1) ℝ), M.covs = [cov, cov] → M.means = [0, 0] →
    M.weights = [1 / 2, 1 / 2] → totalCov M = cov := by
  intro h
  have := congrFun (congrFun (h { means := [0, 0], covs := [1, 1], weights := [1 / 2, 1 / 2], lims := none, names := [] } 1 rfl rfl rfl) 0) 0
  simp [totalCov, totalMean, Mix.comps] at this

/-- What holds: for at most as many components as parameters, and the same total mean for every parameter, it is the covariance of the mixture. -/
theorem totalCov_partial {d : Nat} (M : Mix d) (m : ℝ) (hm : ∀ i, totalMean M i = m) (hd : M.comps.length ≤ d) (i j : Fin d) :
    totalCov M i j = (M.comps.map fun c => c.2.2 * (c.2.1 i j + (c.1 i - totalMean M i) * (c.1 j - totalMean M j))).sum := by
  have h1 : List.ofFn (totalMean M) = List.replicate d m := by
    rw [← List.ofFn_const]
    congr 1
    funext k
    exact hm k
  unfold totalCov
  rw [h1, hm i, hm j]
  have key : ∀ (l : List ((Fin d → ℝ) × Matrix (Fin d) (Fin d) ℝ × ℝ)) (n : Nat), l.length ≤ n →
      ((l.zip (List.replicate n m)).map fun p => p.1.2.2 * (p.1.2.1 i j + (p.1.1 i - p.2) * (p.1.1 j - p.2))) =
      l.map fun c => c.2.2 * (c.2.1 i j + (c.1 i - m) * (c.1 j - m)) := by
    intro l
    induction l with
    | nil => intro n _; simp
    | cons c l ih =>
      intro n hn
      cases n with
      | zero => simp at hn
      | succ n =>
        rw [List.replicate_succ, List.zip_cons_cons, List.map_cons, List.map_cons, ih n (by simpa using hn)]
  rw [key _ _ hd]

/-- The lower limit given is the upper one. -/
theorem getLower_fails : ¬ ∀ (d : Nat) (M : Mix d) (l : List Lim) (i : Nat) (name : Str) (lim : Lim), M.lims = some l → M.names[i]? = some name →
    M.names.Nodup → l[i]? = some lim → getLower M name = .ok lim.1 := by
  intro h
  have := h 1 { means := [0], covs := [1], weights := [1], lims := some [(some 0, some 1)], names := [c!"x"] } _ 0 c!"x" (some 0, some 1)
    rfl rfl (List.nodup_singleton _) rfl
  simp [getLower] at this

/-- The density of one parameter of a mixture with limits on others is refused even if asked for with the flag for this. -/
theorem density1D_flag_fails : ¬ ∀ (M : Mix 2) (p : Par) (i : Fin 2) (num : Nat) (s : ℝ) (lin : Option ℝ → Option ℝ → Nat → List ℝ),
    resolve M p = .ok i → ∃ r, density1D M p num s true lin = .ok r := by
  intro h
  obtain ⟨r, hr⟩ := h { means := [0], covs := [1], weights := [1], lims := some [(none, none), (some 0, none)], names := [] } (.idx 0) 0 3 4
    (fun _ _ _ => []) rfl
  simp [density1D, resolve, checkUnless, checkNoLimits, bind, Except.bind] at hr

/-! ### known parameters of several components -/

/-- the density for known parameters -/
def CondSpec {d : Nat} (M : Mix d) (fixed : List Par) (values : (p : Nat) → Fin p → ℝ) : Prop :=
  ∀ r, conditional M fixed values = .ok r → ∃ l, indices M (some fixed) = .ok l ∧ ∃ R : Mix (keepOf l).length, r = ⟨_, R⟩ ∧
    ∀ z : Fin d → ℝ, z ∘ l.get = values l.length → pdf M z = Marginal M l.get (z ∘ l.get) * pdf R (z ∘ (keepOf l).get)

/-- two components with the same covariance -/
noncomputable def exMix (m1 m2 : Fin 2 → ℝ) (C : Matrix (Fin 2) (Fin 2) ℝ) (w1 w2 : ℝ) : Mix 2 :=
  { means := [m1, m2], covs := [C, C], weights := [w1, w2], lims := none, names := [c!"x", c!"y"] }

/-- the example is a mixture with possible covariances -/
example : Proper (exMix ![0, 0] ![1, 3] (make2DCov 1 2 (1 / 2)) (1 / 4) (3 / 4)) := by
  refine ⟨?_, rfl, rfl, by norm_num [exMix]⟩
  intro c hc
  have : c = make2DCov 1 2 (1 / 2) := by simpa [exMix] using hc
  rw [this]
  exact make2DCov_posDef 1 2 (1 / 2) one_ne_zero two_ne_zero (by rw [abs_of_pos] <;> norm_num)

/-- and can be made by the code -/
example : ∃ M, make [![0, 0], ![1, 3]] [make2DCov 1 2 (1 / 2), make2DCov 1 2 (1 / 2)] (some [1, 3]) none (some [c!"x", c!"y"]) = .ok M ∧
    M.weights = [1 / 4, 3 / 4] := by
  have hd : (make2DCov 1 2 (1 / 2)).det ≠ 0 :=
    (make2DCov_posDef 1 2 (1 / 2) one_ne_zero two_ne_zero (by rw [abs_of_pos] <;> norm_num)).det_pos.ne'
  refine ⟨⟨[![0, 0], ![1, 3]], [make2DCov 1 2 (1 / 2), make2DCov 1 2 (1 / 2)], [1 / 4, 3 / 4], none, [c!"x", c!"y"]⟩, ?_, rfl⟩
  unfold make
  rw [if_neg (by simp), if_neg (by simpa using hd)]
  simp only [Option.getD_some]
  rw [if_neg (by norm_num), if_neg (by simp)]
  norm_num

/-- samples of one parameter, positive ones only: two rounds are needed -/
example : sim (V := ℝ) (fun _ x => x) (some [(some 0, none)]) 2 (fun r _ => if r = 0 then [[-1, 2], []] else [[3, -4], [5]]) id 3 =
    some [2, 3] := by
  norm_num [sim, simLoop, cutAll, cut, cutOne]
  intro h
  cases h

/-- what the code gives for them when the first parameter is zero -/
theorem ex_conditional (m1 m2 : Fin 2 → ℝ) (C : Matrix (Fin 2) (Fin 2) ℝ) (hC : C.PosDef) (w1 w2 : ℝ) (hw : w1 + w2 = 1)
    (h : CondSpec (exMix m1 m2 C w1 w2) [.idx 0] fun _ _ => 0) (z : Fin 2 → ℝ) (hz : z 0 = 0) :
    ∃ D1 D2 t : ℝ, density m1 C z = density1 m1 C 0 0 * D1 ∧ density m2 C z = density1 m2 C 0 0 * D2 ∧
      t = exp (-(C⁻¹ 0 0 * m2 0 ^ 2 - C⁻¹ 0 0 * m1 0 ^ 2) / 2) ∧
      (1 + t) * (density m1 C z * w1 + density m2 C z * w2) =
        (density1 m1 C 0 0 * w1 + density1 m2 C 0 0 * w2) * (D1 + t * D2) := by
  have hM : Proper (exMix m1 m2 C w1 w2) := by
    refine ⟨?_, rfl, rfl, ?_⟩
    · intro c hc
      have : c = C := by simpa [exMix] using hc
      rw [this]; exact hC
    · simpa [exMix] using hw
  set M := exMix m1 m2 C w1 w2
  have hcomps : M.comps = [(m1, C, w1), (m2, C, w2)] := rfl
  have hidx : indices M (some [.idx 0]) = .ok [0] := rfl
  have hkeep : keepOf ([0] : List (Fin 2)) = [1] := by decide
  set f : Fin 1 → Fin 2 := ([0] : List (Fin 2)).get
  set k : Fin (keepOf ([0] : List (Fin 2))).length → Fin 2 := (keepOf ([0] : List (Fin 2))).get
  have hb : Function.Bijective (Sum.elim f k) := keep_bijective [0] (List.nodup_singleton _)
  have hkinj : Function.Injective k := List.nodup_iff_injective_get.mp ((List.nodup_finRange 2).filter _)
  have hf : f = fun _ => 0 := by funext i; fin_cases i; rfl
  set v : Fin 1 → ℝ := fun _ => 0
  have hcd : (condCov C f k).PosDef := (hC.inv.submatrix hkinj).inv
  set g1 := condLog m1 C f k v
  set g2 := condLog m2 C f k v
  set mn := minimum [g1, g2]
  have hok : ∃ R, conditional M [.idx 0] (fun _ _ => 0) = .ok ⟨(keepOf ([0] : List (Fin 2))).length, R⟩ := by
    have hmk : ∃ R, make [condMean m1 C f k v, condMean m2 C f k v] [condCov C f k, condCov C f k]
        (some [exp (-(g1 - mn) / 2), exp (-(g2 - mn) / 2)]) none (some [c!"y"]) = .ok R := by
      unfold make
      rw [if_neg (by simp), if_neg (by simp [hcd.det_pos.ne'])]
      simp only [Option.getD_some]
      rw [if_neg (by
        rw [not_le]
        have := exp_pos (-(g1 - mn) / 2)
        have := exp_pos (-(g2 - mn) / 2)
        simp; positivity), if_neg (by simp)]
      exact ⟨_, rfl⟩
    obtain ⟨R, hR⟩ := hmk
    refine ⟨R, ?_⟩
    unfold conditional
    simp only [bind, Except.bind, hidx]
    have hcl : checkNoLimits M [0] = .ok () := rfl
    have hp : pick M.names (keepOf ([0] : List (Fin 2))) = .ok [c!"y"] := by rw [hkeep]; rfl
    rw [hcl]
    simp only
    rw [if_neg (by rw [hkeep]; simp), hp]
    simp only [hcomps, List.map_cons, List.map_nil]
    split
    · rename_i e he
      have := he.symm.trans hR
      cases this
    · rename_i R1 he
      have := he.symm.trans hR
      injection this with this
      rw [this]
  obtain ⟨R, hR⟩ := hok
  obtain ⟨l, hl, R', hr, hpdf⟩ := h _ hR
  rw [hidx] at hl
  injection hl with hl
  subst hl
  obtain ⟨l2, hl2, -, -, names, -, R2, hr2, hmk⟩ := conditional_ok M _ _ _ hR
  rw [hidx] at hl2
  injection hl2 with hl2
  subst hl2
  have e1 : R = R' := by injection hr
  have e2 : R = R2 := by injection hr2
  rw [← e1] at hpdf
  rw [← e2] at hmk
  obtain ⟨m1', m2', -, -, -, m6, -, -⟩ := make_spec _ _ _ _ _ _ hmk
  obtain ⟨hpos, hwt⟩ := m6 _ rfl
  have hwt' : R.weights = [exp (-(g1 - mn) / 2) / (exp (-(g1 - mn) / 2) + exp (-(g2 - mn) / 2)),
      exp (-(g2 - mn) / 2) / (exp (-(g1 - mn) / 2) + exp (-(g2 - mn) / 2))] := by
    rw [hwt, hcomps]
    simp [g1, g2, mn, f, k, v]
  have hRc : R.comps = [(condMean m1 C f k v, condCov C f k, exp (-(g1 - mn) / 2) / (exp (-(g1 - mn) / 2) + exp (-(g2 - mn) / 2))),
      (condMean m2 C f k v, condCov C f k, exp (-(g2 - mn) / 2) / (exp (-(g1 - mn) / 2) + exp (-(g2 - mn) / 2)))] := by
    unfold Mix.comps
    rw [m1', m2', hwt', hcomps]
    rfl
  have hzf : z ∘ f = v := by rw [hf]; funext i; exact hz
  have hz' := hpdf z hzf
  rw [marginal_sum M hM _ (List.nodup_iff_injective_get.mp (List.nodup_singleton _))] at hz'
  unfold pdf at hz'
  rw [hRc, hcomps] at hz'
  simp only [List.map_cons, List.map_nil, List.sum_cons, List.sum_nil, add_zero] at hz'
  have s1 := cond_spec m1 C hC f k hb z
  have s2 := cond_spec m2 C hC f k hb z
  have d1 : ∀ m : Fin 2 → ℝ, density (m ∘ f) (C.submatrix f f) (z ∘ f) = density1 m C 0 0 := by
    intro m
    rw [density1_eq m C hC, hzf, hf]
  rw [d1, hzf] at s1 s2
  have d1' : ∀ m : Fin 2 → ℝ, density (m ∘ f) (C.submatrix f f) (z ∘ ([0] : List (Fin 2)).get) = density1 m C 0 0 := d1
  rw [d1', d1'] at hz'
  set D1 := density (condMean m1 C f k v) (condCov C f k) (z ∘ k)
  set D2 := density (condMean m2 C f k v) (condCov C f k) (z ∘ k)
  have hg : g2 - g1 = C⁻¹ 0 0 * m2 0 ^ 2 - C⁻¹ 0 0 * m1 0 ^ 2 := by
    have : ∀ m : Fin 2 → ℝ, (C⁻¹.submatrix f f *ᵥ (v - m ∘ f)) ⬝ᵥ (v - m ∘ f) = C⁻¹ 0 0 * m 0 ^ 2 := by
      intro m
      rw [hf]
      simp [v, dotProduct, mulVec]
      ring
    simp only [g1, g2, condLog, this]
    ring
  refine ⟨D1, D2, exp (-(g2 - g1) / 2), s1, s2, by rw [hg], ?_⟩
  have ht : exp (-(g2 - mn) / 2) = exp (-(g2 - g1) / 2) * exp (-(g1 - mn) / 2) := by
    rw [← exp_add]; congr 1; ring
  have hq := exp_pos (-(g1 - mn) / 2)
  have ht0 := exp_pos (-(g2 - g1) / 2)
  rw [ht] at hz'
  have hz2 : density m1 C z * w1 + density m2 C z * w2 = (density1 m1 C 0 0 * w1 + density1 m2 C 0 0 * w2) *
      (D1 * (exp (-(g1 - mn) / 2) / (exp (-(g1 - mn) / 2) + exp (-(g2 - g1) / 2) * exp (-(g1 - mn) / 2))) +
       D2 * (exp (-(g2 - g1) / 2) * exp (-(g1 - mn) / 2) / (exp (-(g1 - mn) / 2) + exp (-(g2 - g1) / 2) * exp (-(g1 - mn) / 2)))) := hz'
  rw [hz2]
  generalize exp (-(g1 - mn) / 2) = q at hq ⊢
  generalize exp (-(g2 - g1) / 2) = t at ht0 ⊢
  field_simp

/-- The density for known parameters is wrong for components of different weight: the weights are not used. -/
theorem cond_weights_fails : ¬ ∀ (M : Mix 2) (fixed : List Par) (values : (p : Nat) → Fin p → ℝ), Proper M → CondSpec M fixed values := by
  intro h
  have hC : (1 : Matrix (Fin 2) (Fin 2) ℝ).PosDef := PosDef.one
  have hM : Proper (exMix ![0, 0] ![0, 1] 1 (1 / 4) (3 / 4)) := by
    refine ⟨?_, rfl, rfl, ?_⟩
    · intro c hc
      have : c = 1 := by simpa [exMix] using hc
      rw [this]; exact hC
    · norm_num [exMix]
  obtain ⟨D1, D2, t, h1, h2, ht, he⟩ := ex_conditional ![0, 0] ![0, 1] 1 hC (1 / 4) (3 / 4) (by norm_num) (h _ _ _ hM) ![0, 0] rfl
  have hF : density1 ![(0 : ℝ), 1] (1 : Matrix (Fin 2) (Fin 2) ℝ) 0 0 = density1 ![(0 : ℝ), 0] 1 0 0 := by simp [density1]
  have hF0 : 0 < density1 ![(0 : ℝ), 0] (1 : Matrix (Fin 2) (Fin 2) ℝ) 0 0 := by
    simp [density1, pi_pos]
  have ht1 : t = 1 := by rw [ht]; simp
  have hd : density ![(0 : ℝ), 1] (1 : Matrix (Fin 2) (Fin 2) ℝ) ![0, 0] = density ![(0 : ℝ), 0] 1 ![0, 0] * exp (-1 / 2) := by
    simp [density]
    ring
  have hd0 : 0 < density ![(0 : ℝ), 0] (1 : Matrix (Fin 2) (Fin 2) ℝ) ![0, 0] := by
    rw [density_eq]; exact Gauss.normal_pos _ hC _
  rw [hd] at h2
  rw [hF] at h2 he
  rw [ht1, hd] at he
  have hlt : exp (-1 / 2 : ℝ) < 1 := by rw [exp_lt_one_iff]; norm_num
  nlinarith

/-- It is also wrong for components of equal weight: the weight is computed with the inverse of the wrong matrix, so that correlations
count where they should not. -/
theorem cond_corr_fails : ¬ ∀ (M : Mix 2) (fixed : List Par) (values : (p : Nat) → Fin p → ℝ), Proper M → (∀ w ∈ M.weights, w = 1 / 2) →
    CondSpec M fixed values := by
  intro h
  have hC : (make2DCov 1 1 (1 / 2)).PosDef := make2DCov_posDef 1 1 (1 / 2) one_ne_zero one_ne_zero (by rw [abs_of_pos] <;> norm_num)
  have hM : Proper (exMix ![0, 0] ![1, 0] (make2DCov 1 1 (1 / 2)) (1 / 2) (1 / 2)) := by
    refine ⟨?_, rfl, rfl, ?_⟩
    · intro c hc
      have : c = make2DCov 1 1 (1 / 2) := by simpa [exMix] using hc
      rw [this]; exact hC
    · norm_num [exMix]
  have hi : (make2DCov 1 1 (1 / 2))⁻¹ 0 0 = 4 / 3 := by
    rw [inv_def, Ring.inverse_eq_inv, adjugate_fin_two, det_fin_two]
    simp [make2DCov]
    norm_num
  obtain ⟨D1, D2, t, h1, h2, ht, he⟩ := ex_conditional ![0, 0] ![1, 0] _ hC (1 / 2) (1 / 2) (by norm_num)
    (h _ _ _ hM (by simp [exMix])) ![0, 0] rfl
  rw [hi] at ht
  have ht1 : t = exp (-2 / 3) := by rw [ht]; congr 1; simp; norm_num
  have hF : density1 ![(1 : ℝ), 0] (make2DCov 1 1 (1 / 2)) 0 0 = density1 ![(0 : ℝ), 0] (make2DCov 1 1 (1 / 2)) 0 0 * exp (-1 / 2) := by
    simp [density1, make2DCov]
    ring
  have hF0 : 0 < density1 ![(0 : ℝ), 0] (make2DCov 1 1 (1 / 2)) 0 0 := by
    simp [density1, make2DCov, pi_pos]
  have hd : density ![(1 : ℝ), 0] (make2DCov 1 1 (1 / 2)) ![0, 0] = density ![(0 : ℝ), 0] (make2DCov 1 1 (1 / 2)) ![0, 0] * t := by
    rw [ht1]
    unfold density
    simp only [dotProduct, mulVec, Fin.sum_univ_two, Pi.sub_apply, cons_val_zero, cons_val_one, hi]
    simp
    rw [mul_comm, ← div_eq_mul_inv]
    congr 2
    norm_num
  have hd0 : 0 < density ![(0 : ℝ), 0] (make2DCov 1 1 (1 / 2)) ![0, 0] := by
    rw [density_eq]; exact Gauss.normal_pos _ hC _
  rw [hd] at h2 he
  rw [hF] at h2 he
  set F := density1 ![(0 : ℝ), 0] (make2DCov 1 1 (1 / 2)) 0 0
  set N := density ![(0 : ℝ), 0] (make2DCov 1 1 (1 / 2)) ![0, 0]
  have hs1 : exp (-1 / 2 : ℝ) ≠ t := by
    rw [ht1]
    intro e
    have := exp_injective e
    norm_num at this
  set s := exp (-1 / 2 : ℝ)
  have hs0 : 0 < s := exp_pos _
  have hlt : t < 1 := by rw [ht1, exp_lt_one_iff]; norm_num
  have ht0 : 0 < t := by rw [ht1]; exact exp_pos _
  -- F * D1 = N, F * s * D2 = N * t
  have e1 : (1 + t) * (F * D1 + F * s * D2) = F * (1 + s) * (D1 + t * D2) := by
    rw [← h1, ← h2]; linarith
  have e2 : (t - s) * (D1 - D2) = 0 := by
    have : F * ((t - s) * (D1 - D2)) = 0 := by linear_combination e1
    rcases mul_eq_zero.mp this with h | h
    · exact absurd h hF0.ne'
    · exact h
  rcases mul_eq_zero.mp e2 with h3 | h3
  · exact hs1 (by linarith)
  · have h4 : D2 = D1 := by linarith
    rw [h4] at h2
    have h5 : N * t = N * s := by rw [h2, h1]; ring
    exact hs1 (mul_left_cancel₀ hd0.ne' h5).symm

end Verif.GaussMix
