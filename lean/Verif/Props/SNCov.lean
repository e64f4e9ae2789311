import Verif.Props.SN

/-!
# Covariance, cached inverse, grid of the supernova likelihood

Specification: the covariance of `m + α s - β c` where the noise of magnitudes, stretches and colours comes from common sources.
-/

namespace Verif.SN
open Verif.Py Matrix Real MeasureTheory

set_option linter.unusedSectionVars false

variable {n : Nat}

/-! ### covariance -/

/-- The matrices are those of noise `P`, `S`, `C` (rows: supernovae, columns: sources of unit variance) in magnitude, stretch and colour; a matrix not given is zero. -/
structure Noise (c : Covs n) (k : Nat) (P S C : Matrix (Fin n) (Fin k) ℝ) : Prop where
  mag : c.mag.getD 0 = P * Pᵀ
  stretch : c.stretch.getD 0 = S * Sᵀ
  colour : c.colour.getD 0 = C * Cᵀ
  magStretch : c.magStretch.getD 0 = P * Sᵀ
  magColour : c.magColour.getD 0 = P * Cᵀ
  stretchColour : c.stretchColour.getD 0 = S * Cᵀ

/-- When the correlations between different quantities are symmetric, the sum of matrices is the covariance of the corrected magnitudes. -/
theorem covSum_noise (c : Covs n) (hc : c.alphabeta = true) (k : Nat) (P S C : Matrix (Fin n) (Fin k) ℝ) (h : Noise c k P S C)
    (h1 : (P * Sᵀ)ᵀ = P * Sᵀ) (h2 : (P * Cᵀ)ᵀ = P * Cᵀ) (h3 : (S * Cᵀ)ᵀ = S * Cᵀ) (a b : ℝ) :
    covSum c a b = (P + a • S - b • C) * (P + a • S - b • C)ᵀ := by
  rw [covSum, if_pos hc, h.mag, h.stretch, h.colour, h.magStretch, h.magColour, h.stretchColour]
  rw [transpose_mul, transpose_transpose] at h1 h2 h3
  simp only [transpose_sub, transpose_add, transpose_smul, Matrix.mul_sub, Matrix.sub_mul, Matrix.mul_add, Matrix.add_mul, Matrix.mul_smul, Matrix.smul_mul,
    h1, h2, h3]
  ext i j
  simp only [Matrix.add_apply, Matrix.sub_apply, Matrix.smul_apply, smul_eq_mul]
  ring

/-- Without the symmetry the quadratic form is still the variance. -/
theorem covSum_quad (c : Covs n) (hc : c.alphabeta = true) (k : Nat) (P S C : Matrix (Fin n) (Fin k) ℝ) (h : Noise c k P S C) (a b : ℝ) (u : Fin n → ℝ) :
    chi2 (covSum c a b) u = ((P + a • S - b • C)ᵀ *ᵥ u) ⬝ᵥ ((P + a • S - b • C)ᵀ *ᵥ u) := by
  rw [covSum, if_pos hc, h.mag, h.stretch, h.colour, h.magStretch, h.magColour, h.stretchColour, chi2]
  have q : ∀ X Y : Matrix (Fin n) (Fin k) ℝ, u ⬝ᵥ (X * Yᵀ) *ᵥ u = (Xᵀ *ᵥ u) ⬝ᵥ (Yᵀ *ᵥ u) := by
    intro X Y
    rw [← mulVec_mulVec, dotProduct_mulVec, ← mulVec_transpose]
  simp only [add_mulVec, sub_mulVec, smul_mulVec, dotProduct_add, dotProduct_sub, dotProduct_smul, q, transpose_sub, transpose_add, transpose_smul,
    add_dotProduct, sub_dotProduct, smul_dotProduct, smul_eq_mul]
  rw [dotProduct_comm (Sᵀ *ᵥ u) (Pᵀ *ᵥ u), dotProduct_comm (Cᵀ *ᵥ u) (Pᵀ *ᵥ u), dotProduct_comm (Cᵀ *ᵥ u) (Sᵀ *ᵥ u)]
  ring

/-- Example: two supernovae, one common source that dims the first by one and the second by two magnitudes and makes the first stretch. -/
example : chi2 (covSum ⟨some !![1, 2; 2, 4], some !![1, 0; 0, 0], none, some !![1, 0; 2, 0], none, none⟩ 3 0) ![1, 1] = 36 := by
  simp [covSum, chi2, Covs.alphabeta, Covs.count, dotProduct, mulVec]
  norm_num

/-- The variance of each supernova is the variance of `m + α s - β c` for its own errors, plus that of peculiar velocities. -/
theorem diagVar_spec (d : Data n) (a b : ℝ) (i : Fin n) (vm vs vc : Fin 3 → ℝ)
    (h1 : d.magVar i = vm ⬝ᵥ vm) (h2 : d.stretchVar i = vs ⬝ᵥ vs) (h3 : d.colourVar i = vc ⬝ᵥ vc)
    (h4 : d.covMS i = vm ⬝ᵥ vs) (h5 : d.covMC i = vm ⬝ᵥ vc) (h6 : d.covSC i = vs ⬝ᵥ vc) :
    diagVar d a b i = (vm + a • vs - b • vc) ⬝ᵥ (vm + a • vs - b • vc) +
      (5 * d.pecz * (1 + d.zcmb i) / (log 10 * (d.zcmb i * (1 + d.zcmb i / 2)))) ^ 2 := by
  simp only [diagVar, preVars, h1, h2, h3, h4, h5, h6, add_dotProduct, sub_dotProduct, smul_dotProduct, dotProduct_add, dotProduct_sub, dotProduct_smul, smul_eq_mul]
  rw [dotProduct_comm vs vm, dotProduct_comm vc vm, dotProduct_comm vc vs]
  have : (5 * d.pecz * (1 + d.zcmb i) / (log 10 * (d.zcmb i * (1 + d.zcmb i / 2)))) ^ 2 =
      25 / log 10 ^ 2 * d.pecz ^ 2 * ((1 + d.zcmb i) / (d.zcmb i * (1 + 1 / 2 * d.zcmb i))) ^ 2 := by
    rw [div_pow, div_pow, mul_pow, mul_pow, mul_pow]
    rw [show (1 : ℝ) / 2 * d.zcmb i = d.zcmb i / 2 by ring]
    rw [show (5 : ℝ) ^ 2 = 25 by norm_num, mul_div_mul_comm, mul_div_assoc]
    ring
  rw [this]
  ring

/-- The whole matrix is positive definite when the correlations are symmetric and all variances are positive: it can be inverted. -/
theorem covMat_posDef (d : Data n) (c : Covs n) (hc : c.alphabeta = true) (k : Nat) (P S C : Matrix (Fin n) (Fin k) ℝ) (h : Noise c k P S C)
    (h1 : (P * Sᵀ)ᵀ = P * Sᵀ) (h2 : (P * Cᵀ)ᵀ = P * Cᵀ) (h3 : (S * Cᵀ)ᵀ = S * Cᵀ) (a b : ℝ) (hd : ∀ i, 0 < diagVar d a b i) :
    (covMat d c a b).PosDef := by
  rw [covMat, covSum_noise c hc k P S C h h1 h2 h3, if_pos hc]
  have hp := posSemidef_self_mul_conjTranspose (P + a • S - b • C)
  rw [conjTranspose_eq_transpose_of_trivial] at hp
  rw [add_comm]
  exact (PosDef.diagonal hd).add_posSemidef hp

/-- Only the covariance of magnitudes: the matrix does not depend on the parameters. -/
theorem covMat_plain (d : Data n) (c : Covs n) (hc : c.alphabeta = false) (a b a' b' : ℝ) : covMat d c a b = covMat d c a' b' := by
  simp [covMat, covSum, hc]

theorem covMat_plain_posDef (d : Data n) (c : Covs n) (hc : c.alphabeta = false) (k : Nat) (P : Matrix (Fin n) (Fin k) ℝ) (h : c.mag.getD 0 = P * Pᵀ)
    (a b : ℝ) (hd : ∀ i, 0 < preVars d i) : (covMat d c a b).PosDef := by
  rw [covMat, covSum]
  simp only [hc, Bool.false_eq_true, if_false, add_zero, h]
  have hp := posSemidef_self_mul_conjTranspose P
  rw [conjTranspose_eq_transpose_of_trivial] at hp
  rw [add_comm]
  exact (PosDef.diagonal hd).add_posSemidef hp

/-- The parameters are ignored exactly when the covariance of magnitudes is the only one given. -/
theorem alphabeta_spec (c : Covs n) :
    c.alphabeta = false ↔ c.mag.isSome = true ∧ c.stretch = none ∧ c.colour = none ∧ c.magStretch = none ∧ c.magColour = none ∧ c.stretchColour = none := by
  obtain ⟨m1, m2, m3, m4, m5, m6⟩ := c
  cases m1 <;> cases m2 <;> cases m3 <;> cases m4 <;> cases m5 <;> cases m6 <;> simp [Covs.alphabeta, Covs.count]

/-! ### the cached inverse -/

theorem isClose_self (x : ℝ) : isClose x x := by
  unfold isClose
  rw [sub_self, abs_zero]
  positivity

/-- when parameters matter, the stored matrix is the inverse for the stored parameters -/
def CacheOk (d : Data n) (c : Covs n) (s : Cache n) : Prop :=
  (∀ p ∈ s.last, (covMat d c p.1 p.2).det ≠ 0 ∧ s.inv = some (covMat d c p.1 p.2)⁻¹)

/-- Unless the parameters are close to the last ones, the result is the inverse, and the function fails exactly for singular matrices. -/
theorem invCov_new (d : Data n) (c : Covs n) (s : Cache n) (a b : ℝ) (hn : ¬ isLast s a b) :
    ((covMat d c a b).det = 0 → (invCov d c s a b).1 = .error .linAlg) ∧
    ((covMat d c a b).det ≠ 0 → ∃ m, (invCov d c s a b).1 = .ok m ∧ m * covMat d c a b = 1 ∧ covMat d c a b * m = 1) := by
  constructor
  · intro h
    simp [invCov, hn, h]
  · intro h
    refine ⟨(covMat d c a b)⁻¹, by simp [invCov, hn, h], nonsing_inv_mul _ (isUnit_iff_ne_zero.mpr h), mul_nonsing_inv _ (isUnit_iff_ne_zero.mpr h)⟩

/-- A call that succeeds returns the inverse for parameters within the tolerance of `np.isclose`, and keeps the invariant. -/
theorem invCov_ok (d : Data n) (c : Covs n) (s : Cache n) (a b : ℝ) (hs : CacheOk d c s) (m : Matrix (Fin n) (Fin n) ℝ) (h : (invCov d c s a b).1 = .ok m) :
    (∃ a' b', isClose a a' ∧ isClose b b' ∧ m * covMat d c a' b' = 1) ∧ CacheOk d c (invCov d c s a b).2 := by
  unfold invCov at h ⊢
  split_ifs at h ⊢ with h1 h2
  · obtain ⟨-, p, hp, hc⟩ := h1
    obtain ⟨hd, hi⟩ := hs p hp
    rw [hi] at h ⊢
    simp only [Except.ok.injEq] at h
    subst h
    exact ⟨⟨p.1, p.2, hc.1, hc.2, nonsing_inv_mul _ (isUnit_iff_ne_zero.mpr hd)⟩, hs⟩
  · simp only [Except.ok.injEq] at h
    subst h
    refine ⟨⟨a, b, isClose_self a, isClose_self b, nonsing_inv_mul _ (isUnit_iff_ne_zero.mpr h2)⟩, ?_⟩
    intro p hp
    unfold nextLast at hp
    split_ifs at hp with hc
    · simp only [Option.mem_def, Option.some.injEq] at hp
      subst hp
      exact ⟨h2, rfl⟩
    · have hpl : (covMat d c p.1 p.2) = covMat d c a b := covMat_plain d c (by simpa using hc) _ _ _ _
      simp only
      rw [hpl]
      exact ⟨h2, rfl⟩

/-- state after a sequence of calls -/
noncomputable def calls (d : Data n) (c : Covs n) (s : Cache n) (ps : List (ℝ × ℝ)) : Cache n := ps.foldl (fun s p => (invCov d c s p.1 p.2).2) s

/-- all calls of a sequence succeed -/
def AllOk (d : Data n) (c : Covs n) : Cache n → List (ℝ × ℝ) → Prop
  | _, [] => True
  | s, p :: ps => (∃ m, (invCov d c s p.1 p.2).1 = .ok m) ∧ AllOk d c (invCov d c s p.1 p.2).2 ps

/-- After any sequence of successful calls, the next call returns the inverse for parameters within the tolerance. -/
theorem calls_ok (d : Data n) (c : Covs n) (ps : List (ℝ × ℝ)) (h : AllOk d c ⟨none, none⟩ ps) (a b : ℝ) (m : Matrix (Fin n) (Fin n) ℝ)
    (hm : (invCov d c (calls d c ⟨none, none⟩ ps) a b).1 = .ok m) : ∃ a' b', isClose a a' ∧ isClose b b' ∧ m * covMat d c a' b' = 1 := by
  have key : ∀ (ps : List (ℝ × ℝ)) (s : Cache n), CacheOk d c s → AllOk d c s ps → CacheOk d c (calls d c s ps) := by
    intro ps
    induction ps with
    | nil => intro s hs _; exact hs
    | cons p ps ih =>
      intro s hs h
      obtain ⟨⟨m, hm⟩, h⟩ := h
      exact ih _ (invCov_ok d c s p.1 p.2 hs m hm).2 h
  exact (invCov_ok d c _ a b (key ps _ (by intro p hp; cases hp) h) m hm).1

/-- one supernova with a stretch matrix only -/
noncomputable def one : Data 1 := ⟨0, 0, 0, 0, 1, 1, 0, 0, 0, 0, 0, 0, 0⟩
noncomputable def oneCov : Covs 1 := ⟨none, some 1, none, none, none, none⟩

theorem oneCov_mat (a b : ℝ) : covMat one oneCov a b = (a * a) • 1 := by
  ext i j
  fin_cases i
  fin_cases j
  simp [covMat, covSum, oneCov, one, Covs.alphabeta, Covs.count, diagVar, preVars]

theorem oneCov_det (a b : ℝ) : (covMat one oneCov a b).det = a * a := by
  rw [oneCov_mat]
  simp

/-- Example: the first call of an object. -/
example : ∃ m, (invCov one oneCov ⟨none, none⟩ 2 0).1 = .ok m ∧ m * covMat one oneCov 2 0 = 1 := by
  obtain ⟨m, h, h', -⟩ := (invCov_new one oneCov ⟨none, none⟩ 2 0 (by rintro ⟨p, hp, -⟩; cases hp)).2 (by rw [oneCov_det]; norm_num)
  exact ⟨m, h, h'⟩

/-! ### the likelihood -/

/-- corrected magnitudes minus the theory -/
noncomputable def residual (l : Like n) (lum : Fin n → ℝ) (a b : ℝ) : Fin n → ℝ :=
  if l.covs.alphabeta then fun i => d i + a * l.data.stretch i - b * l.data.colour i else d
where d := fun i => l.data.mag i - lum i

theorem diffMag_residual (l : Like n) (lum : Fin n → ℝ) (a b : ℝ) : ∃ k : ℝ, diffMag l.data l.covs lum a b = fun i => residual l lum a b i + k := by
  unfold diffMag residual residual.d
  split_ifs
  · exact ⟨-_, by funext i; rw [sub_eq_add_neg]⟩
  · exact ⟨-_, by funext i; rw [sub_eq_add_neg]⟩

/-- The likelihood for a matrix that is positive definite is minus the logarithm of the integral over the unknown magnitudes. -/
theorem alphaBetaLike_spec (l : Like n) (hl : IsSplit l.split) (hn : 0 < n) (s : Cache n) (lum : Fin n → ℝ) (a b : ℝ) (g : Option (Matrix (Fin n) (Fin n) ℝ))
    (m : Matrix (Fin n) (Fin n) ℝ) (hm : m.PosDef) (hu : (useMat l s a b g).1 = .ok m) :
    ∃ x, (alphaBetaLike l s lum a b g).1 = .ok x ∧ exp (-x) = marg l.split m (residual l lum a b) := by
  refine ⟨_, by rw [alphaBetaLike, hu, likeWith], ?_⟩
  obtain ⟨k, hk⟩ := diffMag_residual l lum a b
  rw [hk, likeOf_shift l.split hl m hm hn, likeOf_spec l.split hl m hm hn]

/-- A new object: the likelihood is that of the exact covariance at these parameters. -/
theorem logLike_spec (l : Like n) (hl : IsSplit l.split) (hn : 0 < n) (s : Cache n) (dist : Fin n → ℝ) (a b : ℝ) (hab : l.covs.alphabeta = true)
    (hs : ¬ isLast s a b) (hC : (covMat l.data l.covs a b).PosDef) :
    ∃ x, (logLike l s dist a b).1 = .ok x ∧ exp (-x) = marg l.split (covMat l.data l.covs a b)⁻¹ (residual l (lumDists l.data dist) a b) := by
  rw [logLike, if_pos hab]
  refine alphaBetaLike_spec l hl hn s _ a b none _ hC.inv ?_
  simp [useMat, hab, invCov, hs, hC.det_pos.ne']

/-- The same when only the covariance of magnitudes is given: the constructor has inverted it. -/
theorem logLike_plain (l : Like n) (hl : IsSplit l.split) (hn : 0 < n) (dist : Fin n → ℝ) (a b : ℝ) (hab : l.covs.alphabeta = false)
    (hC : (covMat l.data l.covs 0 0).PosDef) :
    (start l none false).1 = .ok [] ∧
    ∃ x, (logLike l (start l none false).2 dist a b).1 = .ok x ∧ exp (-x) = marg l.split (covMat l.data l.covs 0 0)⁻¹ (residual l (lumDists l.data dist) 0 0) := by
  have hi : invCov l.data l.covs ⟨none, none⟩ 0 0 = (.ok (covMat l.data l.covs 0 0)⁻¹, ⟨none, some (covMat l.data l.covs 0 0)⁻¹⟩) := by
    simp [invCov, hab, hC.det_pos.ne', nextLast]
  constructor
  · simp [start, hab, hi, onlyErr]
  · rw [logLike, if_neg (by simp [hab])]
    refine alphaBetaLike_spec l hl hn _ _ 0 0 none _ hC.inv ?_
    simp [useMat, start, hab, hi]

/-- Example: one supernova, first call. -/
example (d : ℝ) : ∃ x, (logLike ⟨one, oneCov, none⟩ ⟨none, none⟩ ![d] 2 0).1 = .ok x ∧
    exp (-x) = marg none (covMat one oneCov 2 0)⁻¹ (residual ⟨one, oneCov, none⟩ (lumDists one ![d]) 2 0) := by
  refine logLike_spec ⟨one, oneCov, none⟩ ⟨false, 0, 0, by simp [split]⟩ (by norm_num) ⟨none, none⟩ ![d] 2 0 (by simp [oneCov, Covs.alphabeta]) (by rintro ⟨p, hp, -⟩; cases hp) ?_
  simp only
  rw [oneCov_mat]
  exact PosDef.one.smul (by norm_num)

/-! ### absolute distances drop out -/

theorem weighted_shift (v x : Fin n → ℝ) (k : ℝ) (hv : ∑ i, 1 / v i ≠ 0) : weighted v (fun i => x i - k) = weighted v x - k := by
  unfold weighted
  simp only [sub_mul, Finset.sum_sub_distrib, ← Finset.mul_sum]
  field_simp

theorem sum_pos_ne (hn : 0 < n) (v : Fin n → ℝ) (hv : ∀ i, 0 < v i) : ∑ i, 1 / v i ≠ 0 := by
  refine (Finset.sum_pos (fun i _ => by have := hv i; positivity) ⟨⟨0, hn⟩, Finset.mem_univ _⟩).ne'

/-- Multiplying all distances by a positive number, as a change of the Hubble constant does, changes neither the likelihood nor the state. -/
theorem logLike_scale (l : Like n) (hn : 0 < n) (s : Cache n) (dist : Fin n → ℝ) (a b r : ℝ) (hr : 0 < r) (hd : ∀ i, 0 < dist i)
    (hz : ∀ i, -1 < l.data.zcmb i) (hz' : ∀ i, -1 < l.data.zhel i) (hv : ∀ i, 0 < diagVar l.data a b i) (hp : ∀ i, 0 < preVars l.data i) :
    logLike l s (fun i => r * dist i) a b = logLike l s dist a b := by
  have hl : lumDists l.data (fun i => r * dist i) = fun i => lumDists l.data dist i + 5 * (log r / log 10) := by
    funext i
    have h1 := hd i
    have h2 : 0 < 1 + l.data.zcmb i := by linarith [hz i]
    have h3 : 0 < 1 + l.data.zhel i := by linarith [hz' i]
    simp only [lumDists]
    rw [show (1 + l.data.zhel i) * (1 + l.data.zcmb i) * (r * dist i) = r * ((1 + l.data.zhel i) * (1 + l.data.zcmb i) * dist i) by ring,
      log_mul hr.ne' (by positivity)]
    ring
  have key : ∀ lum : Fin n → ℝ, ∀ k a' b' : ℝ, (l.covs.alphabeta = true → a' = a ∧ b' = b) →
      diffMag l.data l.covs (fun i => lum i + k) a' b' = diffMag l.data l.covs lum a' b' := by
    intro lum k a' b' hab
    unfold diffMag
    split_ifs with hc
    · obtain ⟨rfl, rfl⟩ := hab hc
      funext i
      simp only [← sub_sub]
      rw [weighted_shift _ _ _ (sum_pos_ne hn _ hv)]
      ring
    · funext i
      simp only [← sub_sub]
      rw [weighted_shift _ _ _ (sum_pos_ne hn _ hp)]
      ring
  unfold logLike
  split_ifs with hc
  · rw [hl, alphaBetaLike, alphaBetaLike, key _ _ _ _ (fun _ => ⟨rfl, rfl⟩)]
  · rw [hl, alphaBetaLike, alphaBetaLike, key _ _ _ _ (fun h => absurd h hc)]

/-- Example: doubling two distances. -/
example (c : Covs 2) (s : Cache 2) : logLike ⟨⟨0, 0, 0, 0, ![1, 1], ![1, 1], ![1, 1], 0, 0, 0, 0, 0, 0⟩, c, none⟩ s (fun i => 2 * ![(3 : ℝ), 4] i) 0 0 =
    logLike ⟨⟨0, 0, 0, 0, ![1, 1], ![1, 1], ![1, 1], 0, 0, 0, 0, 0, 0⟩, c, none⟩ s ![3, 4] 0 0 := by
  apply logLike_scale _ (by norm_num) _ _ _ _ _ (by norm_num)
  all_goals intro i; fin_cases i <;> simp [diagVar, preVars]

/-! ### the grid -/

/-- The grid has each point within the circle once. -/
theorem gridPoints_spec (k : Nat) : (gridPoints k).Nodup ∧ ∀ p : Int × Int, p ∈ gridPoints k ↔ p.1 ^ 2 + p.2 ^ 2 ≤ (k : Int) ^ 2 := by
  constructor
  · unfold gridPoints
    apply List.Nodup.filter
    rw [List.nodup_flatMap]
    constructor
    · intro i _
      refine List.Nodup.map ?_ List.nodup_range
      intro x y h
      simp at h
      omega
    · refine List.Pairwise.imp_of_mem ?_ (List.nodup_iff_pairwise_ne.mp List.nodup_range)
      intro x y _ _ hxy p hp hp'
      simp only [List.mem_map] at hp hp'
      obtain ⟨u, -, rfl⟩ := hp
      obtain ⟨v, -, hv⟩ := hp'
      simp at hv
      omega
  · intro p
    unfold gridPoints
    simp only [List.mem_filter, List.mem_flatMap, List.mem_map, List.mem_range, decide_eq_true_eq]
    constructor
    · exact fun h => h.2
    · intro h
      refine ⟨?_, h⟩
      have hx : |p.1| ≤ (k : Int) := by
        apply abs_le_of_sq_le_sq _ (by positivity)
        nlinarith [sq_nonneg p.2]
      have hy : |p.2| ≤ (k : Int) := by
        apply abs_le_of_sq_le_sq _ (by positivity)
        nlinarith [sq_nonneg p.1]
      rw [abs_le] at hx hy
      refine ⟨(p.1 + k).toNat, by omega, (p.2 + k).toNat, by omega, ?_⟩
      ext
      · simp only
        omega
      · simp only
        omega

/-- Example: one step in each direction gives a cross. -/
example : gridPoints 1 = [(-1, 0), (0, -1), (0, 0), (0, 1), (1, 0)] := by decide +kernel

/-- The combination of the grid is minus the logarithm of the sum of the likelihoods times the area of a cell. -/
theorem combine_spec (g : Marge) (xs : List ℝ) (hx : xs ≠ []) (ha : 0 < g.wa) (hb : 0 < g.wb) :
    exp (-combine g xs) = (xs.map fun x => exp (-x)).sum * (g.wa * g.wb) := by
  have hs : (xs.map fun x => exp (-x + least xs)).sum = (xs.map fun x => exp (-x)).sum * exp (least xs) := by
    rw [← List.sum_map_mul_right]
    simp only [exp_add]
  have hp : ∀ ys : List ℝ, ys ≠ [] → 0 < (ys.map fun x => exp (-x)).sum := by
    intro ys
    induction ys with
    | nil => intro h; exact absurd rfl h
    | cons y ys ih =>
      intro _
      rw [List.map_cons, List.sum_cons]
      rcases ys with _ | ⟨z, zs⟩
      · simpa using exp_pos _
      · have := ih (by simp)
        have := exp_pos (-y)
        positivity
  have hpx := hp xs hx
  have he := exp_pos (least xs)
  unfold combine
  rw [hs, neg_sub, exp_sub, exp_log (by positivity)]
  field_simp

/-- What is subtracted before the exponentials are taken is the smallest value. -/
theorem least_spec (xs : List ℝ) (hx : xs ≠ []) : least xs ∈ xs ∧ ∀ x ∈ xs, least xs ≤ x := by
  have key : ∀ (ys : List ℝ) (y : ℝ), ys.foldl min y ∈ y :: ys ∧ ∀ x ∈ y :: ys, ys.foldl min y ≤ x := by
    intro ys
    induction ys with
    | nil => intro y; simp
    | cons z zs ih =>
      intro y
      obtain ⟨h1, h2⟩ := ih (min y z)
      have h0 := h2 (min y z) (by simp)
      rw [List.foldl_cons]
      constructor
      · rcases List.mem_cons.mp h1 with h | h
        · rw [h]
          rcases min_choice y z with hm | hm <;> simp [hm]
        · simp [h]
      · intro x hx
        rcases List.mem_cons.mp hx with rfl | hx
        · exact h0.trans (min_le_left _ _)
        · rcases List.mem_cons.mp hx with rfl | hx
          · exact h0.trans (min_le_right _ _)
          · exact h2 x (by simp [hx])
  match xs, hx with
  | y :: ys, _ => exact key ys y

example : least [3, 1, 2] ≤ 1 := (least_spec [3, 1, 2] (by simp)).2 1 (by simp)

/-- Example: two points. -/
example : exp (-combine ⟨1, 1, 2, 0, 0⟩ [0, 0]) = 4 := by
  rw [combine_spec _ _ (by simp) (by norm_num) (by norm_num)]
  norm_num

/-- The constructor computes the exact inverses when no point is close to the one before. -/
theorem precompute_spec (d : Data n) (c : Covs n) (ps : List (ℝ × ℝ)) (s : Cache n)
    (hch : List.IsChain (fun p q : ℝ × ℝ => ¬ (isClose q.1 p.1 ∧ isClose q.2 p.2)) (s.last.toList ++ ps))
    (hab : c.alphabeta = true) (hd : ∀ p ∈ ps, (covMat d c p.1 p.2).det ≠ 0) :
    (precompute d c s ps).1 = .ok (ps.map fun p => (covMat d c p.1 p.2)⁻¹) := by
  induction ps generalizing s with
  | nil => rfl
  | cons p ps ih =>
    have hn : ¬ isLast s p.1 p.2 := by
      rintro ⟨q, hq, h⟩
      rw [Option.mem_def] at hq
      rw [hq] at hch
      simp only [Option.toList_some, List.singleton_append, List.isChain_cons_cons] at hch
      exact hch.1 h
    have hdet := hd p (by simp)
    have hi : invCov d c s p.1 p.2 = (.ok (covMat d c p.1 p.2)⁻¹, ⟨some p, some (covMat d c p.1 p.2)⁻¹⟩) := by
      simp [invCov, hn, hdet, nextLast, hab]
    have hch' : List.IsChain (fun p q : ℝ × ℝ => ¬ (isClose q.1 p.1 ∧ isClose q.2 p.2)) (p :: ps) := by
      rcases hl : s.last with _ | q
      · rw [hl] at hch
        simpa using hch
      · rw [hl] at hch
        simp only [Option.toList_some, List.singleton_append, List.isChain_cons_cons] at hch
        exact hch.2
    rw [precompute, hi, ih ⟨some p, some (covMat d c p.1 p.2)⁻¹⟩ (by simpa using hch') (fun q hq => hd q (by simp [hq]))]
    simp [consOk]

/-- With all matrices given, the likelihoods of the grid are the integrals at its points. -/
theorem gridLikes_spec (l : Like n) (hl : IsSplit l.split) (hn : 0 < n) (lum : Fin n → ℝ) (hab : l.covs.alphabeta = true) (ps : List (ℝ × ℝ)) (s : Cache n)
    (hC : ∀ p ∈ ps, (covMat l.data l.covs p.1 p.2).PosDef) :
    ∃ xs, (gridLikes l lum s (ps.zip (ps.map fun p => some (covMat l.data l.covs p.1 p.2)⁻¹))).1 = .ok xs ∧
      xs.map (fun x => exp (-x)) = ps.map fun p => marg l.split (covMat l.data l.covs p.1 p.2)⁻¹ (residual l lum p.1 p.2) := by
  induction ps generalizing s with
  | nil => exact ⟨[], rfl, rfl⟩
  | cons p ps ih =>
    obtain ⟨x, hx, hx'⟩ := alphaBetaLike_spec l hl hn s lum p.1 p.2 (some (covMat l.data l.covs p.1 p.2)⁻¹) _ (hC p (by simp)).inv (by simp [useMat, hab])
    obtain ⟨xs, hxs, hxs'⟩ := ih (alphaBetaLike l s lum p.1 p.2 (some (covMat l.data l.covs p.1 p.2)⁻¹)).2 (fun q hq => hC q (by simp [hq]))
    refine ⟨x :: xs, ?_, ?_⟩
    · simp only [List.map_cons, List.zip_cons_cons, gridLikes]
      rw [hx, hxs, consOk]
    · rw [List.map_cons, List.map_cons, hx', hxs']

/-- Marginalisation over the parameters: the sum over the grid of the integrals over unknown magnitudes, times the area of a cell. -/
theorem margeLike_spec (l : Like n) (hl : IsSplit l.split) (hn : 0 < n) (g : Marge) (dist : Fin n → ℝ) (hab : l.covs.alphabeta = true)
    (hch : List.IsChain (fun p q : ℝ × ℝ => ¬ (isClose q.1 p.1 ∧ isClose q.2 p.2)) g.values)
    (ha : 0 < g.wa) (hb : 0 < g.wb) (hC : ∀ p ∈ g.values, (covMat l.data l.covs p.1 p.2).PosDef) :
    ∃ ms x, (start l (some g) true).1 = .ok ms ∧ (margeLike l g ms (start l (some g) true).2 dist).1 = .ok x ∧
      exp (-x) = (g.values.map fun p => marg l.split (covMat l.data l.covs p.1 p.2)⁻¹ (residual l (lumDists l.data dist) p.1 p.2)).sum * (g.wa * g.wb) := by
  have hpre := precompute_spec l.data l.covs g.values ⟨none, none⟩ (by simpa using hch) hab (fun p hp => (hC p hp).det_pos.ne')
  obtain ⟨xs, hxs, hxs'⟩ := gridLikes_spec l hl hn (lumDists l.data dist) hab g.values (start l (some g) true).2 hC
  have hne : g.values ≠ [] := by
    intro h
    have h0 := ((gridPoints_spec g.steps).2 (0, 0)).mpr (by positivity)
    rw [Marge.values, List.map_eq_nil_iff] at h
    rw [h] at h0
    cases h0
  refine ⟨g.values.map fun p => some (covMat l.data l.covs p.1 p.2)⁻¹, combine g xs, ?_, ?_, ?_⟩
  · simp only [start, if_true]
    rw [hpre, someAll, List.map_map]
    rfl
  · rw [margeLike, hxs, combineWith]
  · rw [combine_spec g xs _ ha hb, hxs']
    intro h
    rw [h] at hxs'
    simp at hxs'
    exact hne hxs'

/-- Example: the conditions hold for one supernova and the grid of five points. -/
example : ∃ ms x, (start ⟨one, oneCov, none⟩ (some ⟨1, 1, 1, 3, 2⟩) true).1 = .ok ms ∧
    (margeLike ⟨one, oneCov, none⟩ ⟨1, 1, 1, 3, 2⟩ ms (start ⟨one, oneCov, none⟩ (some ⟨1, 1, 1, 3, 2⟩) true).2 ![1]).1 = .ok x := by
  have hg : gridPoints 1 = [(-1, 0), (0, -1), (0, 0), (0, 1), (1, 0)] := by decide +kernel
  obtain ⟨ms, x, h1, h2, -⟩ := margeLike_spec ⟨one, oneCov, none⟩ ⟨false, 0, 0, by simp [split]⟩ (by norm_num) ⟨1, 1, 1, 3, 2⟩ ![1]
    (by simp [oneCov, Covs.alphabeta])
    (by
      simp only [Marge.values, hg, List.map_cons, List.map_nil, List.isChain_cons_cons, isClose]
      norm_num)
    (by norm_num) (by norm_num)
    (by
      intro p hp
      simp only [oneCov_mat]
      refine PosDef.one.smul ?_
      simp only [Marge.values, hg, List.map_cons, List.map_nil, List.mem_cons, List.not_mem_nil, or_false] at hp
      rcases hp with rfl | rfl | rfl | rfl | rfl <;> norm_num)
  exact ⟨ms, x, h1, h2⟩

end Verif.SN
