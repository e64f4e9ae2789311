import Verif.Props.Kde2DSym

/-!
# Settings of two-dimensional densities (C126, C127)

Number of bins, smoothing widths, the change of variables for degenerate pairs of parameters, and cases in which settings are not honoured.
-/

namespace Verif.Kde2D
set_option linter.unusedSectionVars false
open Verif.Py Verif.Py.Np Verif.Convolve Finset
open Verif.Kde1D (soften iter)

section main
variable {K : Type} [Field K] [LinearOrder K] [IsStrictOrderedRing K] [FloorRing K]
variable {conv : Conv2 K} {exp sqrt : K → K}

/-- what `np.sqrt` gives -/
def IsSqrt (sqrt : K → K) : Prop := ∀ x, 0 ≤ x → 0 ≤ sqrt x ∧ sqrt x * sqrt x = x

theorem IsSqrt.pos (h : IsSqrt sqrt) {x : K} (hx : 0 < x) : 0 < sqrt x := by
  obtain ⟨h1, h2⟩ := h x hx.le
  refine lt_of_le_of_ne h1 (fun e => ?_)
  rw [← e, mul_zero] at h2
  exact hx.ne h2

/-- **C126** The factor by which bins are refined lies between 1/5 and 1, and is 1 for uncorrelated parameters. -/
theorem angle_spec (h : IsSqrt sqrt) {maxCorr corr : K} (h0 : 0 ≤ maxCorr) (h1 : maxCorr ≤ 1) :
    1 / 5 ≤ angleScale sqrt maxCorr corr ∧ angleScale sqrt maxCorr corr ≤ 1 ∧ (corr = 0 → angleScale sqrt maxCorr corr = 1) := by
  have hx : 0 ≤ min maxCorr |corr| := le_min h0 (abs_nonneg _)
  have hx1 : min maxCorr |corr| ≤ 1 := (min_le_left _ _).trans h1
  have hs : sqrt (1 - min maxCorr |corr| ^ 2) ≤ 1 := by
    obtain ⟨e1, e2⟩ := h (1 - min maxCorr |corr| ^ 2) (by nlinarith)
    by_contra hc
    nlinarith [not_le.mp hc]
  refine ⟨le_max_left _ _, max_le (by norm_num) hs, fun hz => ?_⟩
  subst hz
  unfold angleScale
  rw [abs_zero, min_eq_right h0]
  obtain ⟨e1, e2⟩ := h (1 - 0 ^ 2) (by norm_num)
  have : sqrt (1 - 0 ^ 2 : K) = 1 := by nlinarith
  rw [this]
  norm_num

/-- **C126** The number of bins of the smoothing unit is at least the setting and at most five times it. -/
theorem nbin_spec (numBins : Nat) {a : K} (h0 : 1 / 5 ≤ a) (h1 : a ≤ 1) :
    (numBins : Int) ≤ nbin2D numBins a ∧ nbin2D numBins a ≤ 5 * numBins := by
  have ha : 0 < a := lt_of_lt_of_le (by norm_num) h0
  have hn : (0 : K) ≤ numBins := Nat.cast_nonneg _
  unfold nbin2D
  constructor
  · have := roundEven_mono (x := ((numBins : Int) : K)) (y := (numBins : K) / a) (by
      rw [le_div_iff₀ ha]; push_cast; nlinarith)
    rwa [roundEven_int] at this
  · have := roundEven_mono (x := (numBins : K) / a) (y := ((5 * numBins : Int) : K)) (by
      rw [div_le_iff₀ ha]; push_cast; nlinarith)
    rwa [roundEven_int] at this

/-- **C126** The fine grid is never coarser than asked for and has at most 960 bins unless more are asked for; uncorrelated parameters use
exactly the number asked for. -/
theorem fineBins_spec (base : Nat) {corr a : K} (h0 : 1 / 5 ≤ a) :
    base ≤ fineBins base corr a ∧ fineBins base corr a ≤ max base 960 ∧ (corr = 0 ∨ 1 / 2 < a → fineBins base corr a = base) := by
  have ha : 0 < a := lt_of_lt_of_le (by norm_num) h0
  have h15 : ⌊3 / a⌋ ≤ 15 := by
    have : (3 / a : K) ≤ ((15 : Int) : K) := by rw [div_le_iff₀ ha]; push_cast; linarith
    exact_mod_cast (Int.floor_le_floor this).trans (by rw [Int.floor_intCast])
  unfold fineBins
  dsimp only
  split_ifs with c1 c2
  · refine ⟨c2.1.le, ?_, ?_⟩
    · have : ⌊3 / a⌋.toNat ≤ 15 := by omega
      omega
    · rintro (h | h)
      · exact absurd h c1
      · exfalso
        have : (1 / a : K) < ((2 : Int) : K) := by rw [div_lt_iff₀ ha]; push_cast; linarith
        have := Int.floor_lt.mpr this
        omega
  · exact ⟨le_refl _, le_max_left _ _, fun _ => rfl⟩
  · exact ⟨le_refl _, le_max_left _ _, fun _ => rfl⟩

/-- **C126** Smoothing widths in units of the parameter do not depend on the bins: a multiple of the automatic width for a negative setting, of the
standard deviation below one; from one it is in units of plot bins. -/
theorem smooth_spec (scale auto err : K) {fine : K} (hf : fine ≠ 0) (fineBins : Nat) (nbin : Int) :
    (scale < 0 → smooth2 scale auto err fine fineBins nbin * fine = auto * -scale) ∧
    (0 ≤ scale → scale < 1 → smooth2 scale auto err fine fineBins nbin * fine = scale * err) ∧
    (1 ≤ scale → nbin ≠ 0 → smooth2 scale auto err fine fineBins nbin * nbin = scale * fineBins) := by
  unfold smooth2
  refine ⟨fun h => ?_, fun h h' => ?_, fun h h' => ?_⟩
  · rw [if_pos h, abs_of_neg h, div_mul_cancel₀ _ hf]
  · rw [if_neg (not_lt.mpr h), if_pos h', div_mul_cancel₀ _ hf]
  · rw [if_neg (not_lt.mpr (by linarith)), if_neg (not_lt.mpr h), div_mul_cancel₀]
    exact_mod_cast h'

/-- **C126** The window reaches two and a half of the larger width, to the nearest bin. -/
theorem winw_spec {rx ry : K} (h : 0 ≤ max rx ry) : |(winw2 rx ry : K) - 5 / 2 * max rx ry| ≤ 1 / 2 := by
  have hx : (0 : K) ≤ 5 / 2 * max rx ry := by positivity
  have h0 : 0 ≤ roundEven (5 / 2 * max rx ry) := by
    have := roundEven_mono (x := ((0 : Int) : K)) (by push_cast; exact hx)
    rwa [roundEven_int] at this
  unfold winw2
  have e : (((roundEven (5 / 2 * max rx ry)).toNat : Nat) : K) = ((roundEven (5 / 2 * max rx ry) : Int) : K) := by
    rw [← Int.cast_natCast, Int.toNat_of_nonneg h0]
  rw [e]
  exact roundEven_error _

/-- **C126** The correlation of the kernel is limited in size and kept if within the limit. -/
theorem clamp_spec {maxCorr corr : K} (h : 0 ≤ maxCorr) :
    |clampCorr maxCorr corr| ≤ maxCorr ∧ (|corr| ≤ maxCorr → clampCorr maxCorr corr = corr) ∧ clampCorr maxCorr (-corr) = -clampCorr maxCorr corr := by
  unfold clampCorr
  refine ⟨abs_le.mpr ⟨le_max_right _ _, max_le (min_le_right _ _) (by linarith)⟩, fun h => ?_, ?_⟩
  · obtain ⟨h1, h2⟩ := abs_le.mp h
    rw [min_eq_left h2, max_eq_left h1]
  · rcases le_total corr maxCorr with h1 | h1 <;> rcases le_total (-corr) maxCorr with h2 | h2
    · rw [min_eq_left h1, min_eq_left h2, max_eq_left (by linarith), max_eq_left (by linarith)]
    · rw [min_eq_left h1, min_eq_right h2, max_eq_right (by linarith : corr ≤ -maxCorr), max_eq_left (by linarith), neg_neg]
    · rw [min_eq_right h1, min_eq_left h2, max_eq_left (by linarith : -maxCorr ≤ maxCorr), max_eq_right (by linarith)]
    · rw [min_eq_right h1, min_eq_right h2, max_eq_left (by linarith : -maxCorr ≤ maxCorr)]
      linarith

/-! ## Change of variables for degenerate parameters -/

/-- variance of `u x + v y` for the covariance `[[a, b], [b, d]]`, and covariance of `u x + v y` with `u' x + v' y` -/
def covLin (a b d u v u' v' : K) : K := u * u' * a + (u * v' + v * u') * b + v * v' * d

/-- **C126** The second variable of the change of variables is uncorrelated with the first and has its variance; the first is unchanged, so that
limits on it stay where they are. -/
theorem shear_spec (h : IsSqrt sqrt) {a b d : K} (ha : 0 < a) (hd : 0 < a * d - b ^ 2) :
    ∃ u v, v ≠ 0 ∧ (∀ x y, shear sqrt a b d x y = u * x + v * y) ∧ covLin a b d 1 0 u v = 0 ∧ covLin a b d u v u v = a := by
  have hs := h.pos ha
  have hs2 := (h a ha.le).2
  have hb : b / sqrt a * (b / sqrt a) = b ^ 2 / a := by
    rw [div_mul_div_comm, hs2, sq]
  have ht0 : 0 < d - (b / sqrt a) ^ 2 := by
    rw [sq, hb]
    have : d - b ^ 2 / a = (a * d - b ^ 2) / a := by field_simp
    rw [this]
    positivity
  have ht := h.pos ht0
  have ht2 := (h _ ht0.le).2
  unfold shear chol covLin
  dsimp only
  generalize sqrt (d - (b / sqrt a) ^ 2) = t at *
  generalize sqrt a = s at *
  subst hs2
  refine ⟨-(b / s) / (s * t) / (1 / s), 1 / t / (1 / s), by positivity, fun _ _ => rfl, ?_, ?_⟩
  · field_simp
    ring
  · field_simp at ht2 ⊢
    linear_combination (-1 : K) * ht2

/-- **C126** Undoing it: the kernel with widths `hx`, `hy` and correlation `c` in the new variables is mapped to the covariance of `x` and of `y`
solved for from the new variables. -/
theorem kernelBack_spec (h : IsSqrt sqrt) {a b d : K} (ha : 0 < a) (hd : 0 < a * d - b ^ 2) (hx hy c : K) :
    ∃ u v, (∀ x y, u * x + v * shear sqrt a b d x y = y) ∧
      kernelBack sqrt a b d hx hy c = (hx ^ 2, covLin (hx ^ 2) (hx * hy * c) (hy ^ 2) u v u v, covLin (hx ^ 2) (hx * hy * c) (hy ^ 2) 1 0 u v) := by
  have hs := h.pos ha
  have hs2 := (h a ha.le).2
  have hb : b / sqrt a * (b / sqrt a) = b ^ 2 / a := by
    rw [div_mul_div_comm, hs2, sq]
  have ht0 : 0 < d - (b / sqrt a) ^ 2 := by
    rw [sq, hb]
    have : d - b ^ 2 / a = (a * d - b ^ 2) / a := by field_simp
    rw [this]
    positivity
  have ht := h.pos ht0
  refine ⟨b / sqrt a * (1 / sqrt a), sqrt (d - (b / sqrt a) ^ 2) * (1 / sqrt a), ?_, ?_⟩
  · intro x y
    unfold shear chol
    dsimp only
    generalize sqrt (d - (b / sqrt a) ^ 2) = t at *
    generalize sqrt a = s at *
    field_simp
    ring
  · unfold kernelBack chol covLin
    dsimp only
    have e : sqrt a * (1 / sqrt a) = 1 := by field_simp
    rw [e]
    refine Prod.ext ?_ (Prod.ext ?_ ?_) <;> dsimp only <;> ring

/-- **C126** With a hard limit on at most one parameter the choice of method does not depend on the sign of the correlation. -/
theorem band_sign (minCorr maxCorr corr : K) {lx ly : Bool} (h : (lx && ly) = false) :
    bandChoice minCorr maxCorr (-corr) lx ly = bandChoice minCorr maxCorr corr lx ly := by
  have : (!lx || !ly) = true := by cases lx <;> cases ly <;> simp_all
  unfold bandChoice
  simp only [this, abs_neg, Bool.true_eq_false, false_and, or_false]

/-! ## Settings that are not honoured -/

/-- **C127** Refuted: for two parameters with hard limits and a strong correlation the method depends on the sign of the correlation
(mcsamples.py:1283 tests `corr > 0.8` and not its size): with positive correlation a fixed width is used, with negative the optimizer for
uncorrelated kernels, although reversing one parameter turns one case into the other. -/
theorem band_sign_fails (minCorr maxCorr : K) {corr : K} (h1 : 8 / 10 < corr) (h2 : corr ≤ maxCorr) :
    bandChoice minCorr maxCorr corr true true = .fixed ∧ bandChoice minCorr maxCorr (-corr) true true = .optimized := by
  have h0 : 0 < corr := lt_trans (by norm_num) h1
  constructor
  · simp [bandChoice, h1]
  · simp [bandChoice, abs_of_pos h0, not_lt.mpr h2, not_lt.mpr (by linarith : -corr ≤ 8 / 10)]

/-- **C127** Refuted: `boundary_correction_order=2`, which one-dimensional densities accept, is refused for two parameters if one of them has a hard
limit (mcsamples.py:1781), and only then. -/
theorem order2_fails (hc : Conv2Ok conv) (he : ∀ x, 0 < exp x) {rx ry corr : K} (hx : rx ≠ 0) (hy : ry ≠ 0) (hcr : corr ^ 2 ≠ 1) {hist : Arr K}
    (hm : 0 < hist.h) (hn : 0 < hist.w) {order : Int} (ho : 2 ≤ order) (rounds : Nat) {xb xt yb yt : Bool} (hl : (xb || xt || yb || yt) = true) :
    gridDensity2 conv exp order rounds xb xt yb yt rx ry corr hist = .error .settingError := by
  obtain ⟨W, hW, hWh, hWw, -, -, -⟩ := window_spec he hx hy hcr (winw2 rx ry)
  obtain ⟨P, hP, vP⟩ := run_same2 hc (x := hist) (y := W) (w := winw2 rx ry) rfl rfl hWh hWw hm hn
  obtain ⟨A, hA, -⟩ := run_valid2 hc (x := edgeMask2 xb xt yb yt (ones (hist.h + 2 * winw2 rx ry) (hist.w + 2 * winw2 rx ry)) (winw2 rx ry) false)
    (y := W) (w := winw2 rx ry) (m := hist.h) (n := hist.w)
    (by cases xb <;> cases xt <;> cases yb <;> cases yt <;> rfl) (by cases xb <;> cases xt <;> cases yb <;> cases yt <;> rfl) hWh hWw hm hn
  unfold gridDensity2
  rw [hW]
  simp only [raw2, hP]
  unfold edgeCorrect2
  rw [if_pos ⟨hl, by omega⟩]
  dsimp only
  rw [hA]
  simp only [bind, Except.bind]
  rw [if_neg (by omega), if_neg (by omega)]

/-- **C127** Refuted: `max_corr_2D = 1` is accepted, though the message of the check says it cannot be (`abs(..) > 1`, mcsamples.py:1666-1667); for
two fully correlated parameters the kernel is then singular and the density fails. -/
theorem max_corr_fails (order : Int) (rounds : Nat) (xb xt yb yt : Bool) (rx ry : K) (hist : Arr K) :
    useCorr (1 : K) 1 = .ok 1 ∧ clampCorr (1 : K) 1 = 1 ∧
      gridDensity2 conv exp order rounds xb xt yb yt rx ry (clampCorr 1 1) hist = .error .linAlgError := by
  have e : clampCorr (1 : K) 1 = 1 := by unfold clampCorr; norm_num
  refine ⟨?_, e, ?_⟩
  · unfold useCorr
    rw [abs_one, if_neg (lt_irrefl _), if_neg (by norm_num)]
  · rw [e]
    unfold gridDensity2 window cinv
    dsimp only
    rw [if_pos (by ring)]

/-- **C127** Refuted: the limit on the correlation of the kernel is not applied if the smoothing is set explicitly (mcsamples.py:1704-1709): two
parameters one of which is a multiple of the other give a singular kernel, for any allowed `max_corr_2D`. -/
theorem explicit_corr_fails (order : Int) (rounds : Nat) (xb xt yb yt : Bool) (rx ry : K) (hist : Arr K) {maxCorr corr : K} (h : |maxCorr| ≤ 1)
    (hc : corr = 1 ∨ corr = -1) :
    ∃ c, useCorr maxCorr corr = .ok c ∧ gridDensity2 conv exp order rounds xb xt yb yt rx ry c hist = .error .linAlgError := by
  have hn : ¬ |corr| < 1 / 10 := by rcases hc with h | h <;> rw [h] <;> norm_num
  refine ⟨corr, ?_, ?_⟩
  · unfold useCorr
    rw [if_neg (not_lt.mpr h), if_neg hn]
  · unfold gridDensity2 window cinv
    dsimp only
    rw [if_pos (by rcases hc with h | h <;> rw [h] <;> ring)]

/-- **C127** Refuted: with little smoothing (less than a fifth of a bin) the window is a single bin, and `prior_mask[:, -winw:] = 0` clears the whole
mask instead of nothing (mcsamples.py:1574, 1583): the correction for an upper limit is silently left out, and the bias correction divides by
a mask that is zero everywhere, whatever the limits. -/
theorem zero_window_fails (xb yb yt all : Bool) (a : Arr K) :
    (∀ i j, (edgeMask2 xb true yb yt a 0 all).v i j = 0) ∧ ∀ xt i j, (edgeMask2 xb xt yb yt a 0 true).v i j = 0 := by
  constructor
  · intro i j
    cases xb <;> cases yb <;> cases yt <;> cases all <;> simp [edgeMask2, zeroColsLast, zeroRowsLast, halveRow, zeroRowsTo]
  · intro xt i j
    simp [edgeMask2, zeroRowsLast]

end main

/-! ## The scale of the weights -/

/-- `P` in range determines a round of bias correction -/
theorem biasF2_congr {K : Type} [Field K] [LinearOrder K] [IsStrictOrderedRing K] [FloorRing K] {m n w : Nat} {W hist : Arr K} {xb xt yb yt : Bool}
    {P P' : Nat → Nat → K} (h : ∀ i < m, ∀ j < n, P i j = P' i j) :
    ∀ i < m, ∀ j < n, biasF2 xb xt yb yt m n w W hist P i j = biasF2 xb xt yb yt m n w W hist P' i j := by
  intro i hi j hj
  unfold biasF2
  rw [h i hi j hj, ws_congr (f' := pad2 w (boxF hist m n P')) (fun _ _ _ _ => rfl)]
  intro o _ p _
  apply pad2_congr (K := K) (by rfl) (by rfl)
  intro a ha b hb
  simp only [boxF] at ha hb ⊢
  rw [maxF_congr h, h a ha b hb]

section scale
variable {K : Type} [Field K] [LinearOrder K] [IsStrictOrderedRing K] [FloorRing K]
variable {conv : Conv2 K} {exp : K → K}

/-- 10^10 samples in one bin and one in another -/
def twoBins : Arr K := ⟨2, 4, fun i j => if i = 0 ∧ j = 0 then 10 ^ 10 else if i = 0 ∧ j = 3 then 1 else 0⟩

theorem two_P (W : Arr K) (s : K) : bF W (scale s twoBins) 1 0 0 0 0 = W.v 1 1 * (s * 10 ^ 10) ∧ bF W (scale s twoBins) 1 0 0 0 3 = W.v 1 1 * s := by
  simp only [bF_zero]
  constructor <;> simp [ws, sum_range_succ, pad2, Arr.ent, twoBins, scale]

theorem two_le (W : Arr K) (hW : ∀ o < 3, ∀ p < 3, 0 < W.v o p ∧ W.v o p ≤ W.v 1 1) {s : K} (hs : 0 < s) :
    ∀ i < 2, ∀ j < 4, bF W (scale s twoBins) 1 0 0 i j ≤ W.v 1 1 * (s * 10 ^ 10) := by
  have h10 : s ≤ s * 10 ^ 10 := by nlinarith
  have hA : 0 < s * 10 ^ 10 := by positivity
  have h1 : ∀ o < 3, ∀ p < 3, W.v o p * (s * 10 ^ 10) ≤ W.v 1 1 * (s * 10 ^ 10) := fun o ho p hp => mul_le_mul_of_nonneg_right (hW o ho p hp).2 hA.le
  have h2 : ∀ o < 3, ∀ p < 3, W.v o p * s ≤ W.v 1 1 * (s * 10 ^ 10) := fun o ho p hp =>
    (mul_le_mul_of_nonneg_left h10 (hW o ho p hp).1.le).trans (h1 o ho p hp)
  intro i hi j hj
  rw [bF_zero]
  have hi' : i = 0 ∨ i = 1 := by omega
  have hj' : j = 0 ∨ j = 1 ∨ j = 2 ∨ j = 3 := by omega
  rcases hi' with rfl | rfl <;> rcases hj' with rfl | rfl | rfl | rfl <;>
    simp [ws, sum_range_succ, pad2, Arr.ent, twoBins, scale] <;> first | exact h1 _ (by norm_num) _ (by norm_num) | exact h2 _ (by norm_num) _ (by norm_num)

theorem two_box (W : Arr K) (hW : ∀ o < 3, ∀ p < 3, 0 < W.v o p ∧ W.v o p ≤ W.v 1 1) (order : Int) :
    ∃ x y : K, 0 < x ∧ 0 < y ∧ ∀ s : K, 0 < s →
      rawF2 exp order 1 false false false false 2 4 1 W (scale s twoBins) 0 0 = s * x ∧
      rawF2 exp order 1 false false false false 2 4 1 W (scale s twoBins) 0 3 = s ^ 2 * y := by
  have hc : 0 < W.v 1 1 := (hW 1 (by norm_num) 1 (by norm_num)).1
  have hmk : ∀ j < 4, 0 < ws 1 W.v (mask2 false false false false true 2 4 1) 0 j := by
    intro j hj
    have h : ∀ o < 2 * 1 + 1, ∀ p < 2 * 1 + 1, 0 ≤ W.v o p := fun o ho p hp => (hW o ho p hp).1.le
    refine lt_of_lt_of_le ?_ (ws_center h (fun o _ p _ => mul_nonneg (m1_nonneg ..) (m1_nonneg ..)))
    exact mul_pos hc (mul_pos (m1_pos _ _ _ (by omega) (by omega)) (m1_pos _ _ _ (by omega) (by omega)))
  have hm0 := hmk 0 (by norm_num)
  have hm3 := hmk 3 (by norm_num)
  refine ⟨W.v 1 1 * 10 ^ 10 / ws 1 W.v (mask2 false false false false true 2 4 1) 0 0,
    W.v 1 1 * W.v 1 1 / ws 1 W.v (mask2 false false false false true 2 4 1) 0 3, by positivity, by positivity, ?_⟩
  intro s hs
  have hmax : maxF 2 4 (bF W (scale s twoBins) 1 0 0) = W.v 1 1 * (s * 10 ^ 10) :=
    maxF_unique (by norm_num) (by norm_num) ⟨0, by norm_num, 0, by norm_num, (two_P W s).1⟩ (two_le W hW hs)
  have hraw : rawF2 exp order 1 false false false false 2 4 1 W (scale s twoBins) =
      biasF2 false false false false 2 4 1 W (scale s twoBins) (bF W (scale s twoBins) 1 0 0) := by
    unfold rawF2
    show biasF2 _ _ _ _ _ _ _ _ _ (fun i j => _) = _
    congr 1
  have hb : ∀ i j, (boxF (scale s twoBins) 2 4 (bF W (scale s twoBins) 1 0 0)).v i j =
      if i = 0 ∧ j = 0 then 1 / W.v 1 1 else if i = 0 ∧ j = 3 then s else 0 := by
    intro i j
    simp only [boxF]
    rw [hmax]
    by_cases h0 : i = 0 ∧ j = 0
    · obtain ⟨rfl, rfl⟩ := h0
      rw [(two_P W s).1, if_pos]
      · simp [scale, twoBins]
        field_simp
      · unfold tiny
        have : 0 < W.v 1 1 * (s * 10 ^ 10) := by positivity
        nlinarith
    rw [if_neg h0]
    by_cases h3 : i = 0 ∧ j = 3
    · obtain ⟨rfl, rfl⟩ := h3
      rw [(two_P W s).2, if_neg]
      · simp [scale, twoBins]
      · unfold tiny
        have : 0 < W.v 1 1 * s := by positivity
        nlinarith
    rw [if_neg h3]
    simp [scale, twoBins, h0, h3]
  have hbh : (boxF (scale s twoBins) 2 4 (bF W (scale s twoBins) 1 0 0)).h = 2 := rfl
  have hbw : (boxF (scale s twoBins) 2 4 (bF W (scale s twoBins) 1 0 0)).w = 4 := rfl
  rw [hraw]
  unfold biasF2
  rw [(two_P W s).1, (two_P W s).2]
  generalize boxF (scale s twoBins) 2 4 (bF W (scale s twoBins) 1 0 0) = B at *
  have e0 : ws 1 W.v (pad2 1 B) 0 0 = 1 := by
    simp [ws, sum_range_succ, pad2, Arr.ent, hbh, hbw, hb, hc.ne']
  have e3 : ws 1 W.v (pad2 1 B) 0 3 = W.v 1 1 * s := by
    simp [ws, sum_range_succ, pad2, Arr.ent, hbh, hbw, hb]
  rw [e0, e3]
  constructor <;> ring

/-- **C127** Refuted: with bias correction (the default) the density depends on the overall scale of the weights, which carries no information:
where the estimate is below 1e-8 of the maximum the histogram is used as it is, and not divided by the estimate (mcsamples.py:1788-1791).  Here
10^10 samples fall in one bin and one in another: if all weights are multiplied by `s`, the ratio of the densities is multiplied by `s` (so
that for large `s` the single sample becomes the maximum). -/
theorem bias_scale_fails (hc : Conv2Ok conv) (he : ∀ x, 0 < exp x) (hmo : ∀ x ≤ 0, exp x ≤ exp 0) (order : Int) {rx ry corr : K}
    (hx : rx ≠ 0) (hy : ry ≠ 0) (hcr : corr ^ 2 < 1) (hw : winw2 rx ry = 1) {s : K} (hs : 0 < s) :
    ∃ r r', gridDensity2 conv exp order 1 false false false false rx ry corr twoBins = .ok r ∧
      gridDensity2 conv exp order 1 false false false false rx ry corr (scale s twoBins) = .ok r' ∧
      0 < r.v 0 0 ∧ 0 < r.v 0 3 ∧ r'.v 0 3 / r'.v 0 0 = s * (r.v 0 3 / r.v 0 0) := by
  obtain ⟨W, hW, hWh, hWw, hWv, hWp, -⟩ := window_spec he hx hy hcr.ne 1
  have hWc : ∀ o < 3, ∀ p < 3, 0 < W.v o p ∧ W.v o p ≤ W.v 1 1 := by
    intro o _ p _
    refine ⟨hWp o p, ?_⟩
    rw [hWv, hWv]
    have hS : 0 < gS exp rx ry corr 1 := by
      have := hWp 1 1
      rw [hWv] at this
      exact (pos_iff_pos_of_mul_pos (by rwa [div_eq_mul_inv] at this)).mp (he _) |> inv_pos.mp
    have e : gaussExp rx ry corr (off 1 1) (off 1 1) = 0 := by unfold gaussExp off; simp
    rw [e]
    exact div_le_div_of_nonneg_right (hmo _ (gaussExp_nonpos hcr _ _)) hS.le
  obtain ⟨x, y, hx0, hy0, hxy⟩ := two_box (exp := exp) W hWc order
  have key : ∀ s : K, 0 < s → ∃ r M, 0 < M ∧ gridDensity2 conv exp order 1 false false false false rx ry corr (scale s twoBins) = .ok r ∧
      r.v 0 0 = s * x / M ∧ r.v 0 3 = s ^ 2 * y / M := by
    intro s hs
    obtain ⟨h0, h3⟩ := hxy s hs
    have hM : 0 < maxF 2 4 (rawF2 exp order 1 false false false false 2 4 1 W (scale s twoBins)) := by
      have := (maxF_spec (m := 2) (n := 4) (by norm_num) (by norm_num) (rawF2 exp order 1 false false false false 2 4 1 W (scale s twoBins))).2 0 (by norm_num) 0 (by norm_num)
      rw [h0] at this
      exact lt_of_lt_of_le (by positivity) this
    obtain ⟨r, e, v⟩ := (grid_eval2 (exp := exp) (xb := false) (xt := false) (yb := false) (yt := false) (order := order)
      (hist := scale s twoBins) (m := 2) (n := 4) hc (by rw [hw]; exact hW) (by rw [hw]; exact hWh) (by rw [hw]; exact hWw) rfl rfl
      (by rw [hw]; norm_num) (by norm_num) (by norm_num) (fun h => by simp at h) 1).2 (by rw [hw]; exact hM.ne')
    refine ⟨r, _, hM, e, ?_, ?_⟩
    · rw [v.2.2 0 (by norm_num) 0 (by norm_num)]
      unfold dens
      rw [hw, h0]
    · rw [v.2.2 0 (by norm_num) 3 (by norm_num)]
      unfold dens
      rw [hw, h3]
  obtain ⟨r, M, hM, e, a0, a3⟩ := key 1 one_pos
  obtain ⟨r', M', hM', e', a0', a3'⟩ := key s hs
  have e1 : scale (1 : K) twoBins = twoBins := by unfold scale; simp only [one_mul]
  rw [e1] at e
  refine ⟨r, r', e, e', ?_, ?_, ?_⟩
  · rw [a0]; positivity
  · rw [a3]; positivity
  · rw [a0, a3, a0', a3']
    field_simp

end scale

/-! ## Concrete cases -/

/-- a positive function with the monotonicity of the exponential -/
def qexp (x : ℚ) : ℚ := if x ≤ 0 then 1 / (1 - x) else 1 + x

theorem qexp_pos (x : ℚ) : 0 < qexp x := by
  unfold qexp
  split_ifs with h
  · have : 0 < 1 - x := by linarith
    positivity
  · linarith

theorem qexp_le (x : ℚ) (h : x ≤ 0) : qexp x ≤ qexp 0 := by
  unfold qexp
  rw [if_pos h, if_pos le_rfl, div_le_div_iff₀ (by linarith) (by norm_num)]
  linarith

def exHist : Arr ℚ := ⟨3, 4, fun i j => i + 2 * j⟩

example : ∃ r, gridDensity2 linConv qexp 1 2 true false false true (2 / 5) (1 / 3) (1 / 2) exHist = .ok r ∧ r.h = 3 ∧ r.w = 4 ∧
    (∀ i < 3, ∀ j < 4, 0 ≤ r.v i j ∧ r.v i j ≤ 1 ∧ (0 < exHist.v i j → 0 < r.v i j)) ∧ ∃ i < 3, ∃ j < 4, r.v i j = 1 :=
  density_range2 (m := 3) (n := 4) linConv_ok qexp_pos (by norm_num) (by norm_num) (by norm_num) rfl rfl (by decide +kernel) (by norm_num) (by norm_num) (fun _ => by norm_num) 2
    (fun i _ j _ => by simp only [exHist]; positivity) ⟨1, by norm_num, 1, by norm_num, by norm_num [exHist]⟩

/-- a flat density in three by three bins whose outer bins are half outside the limits -/
def flatHist : Arr ℚ := ⟨3, 3, fun i j => (if i = 1 then 2 else 1) * (if j = 1 then 2 else 1)⟩

example : ∃ r, gridDensity2 linConv qexp 1 1 true true true true (2 / 5) (2 / 5) (1 / 2) flatHist = .ok r ∧ r.h = 3 ∧ r.w = 3 ∧ ∀ i < 3, ∀ j < 3, r.v i j = 1 := by
  refine flat_exact2 linConv_ok qexp_pos (by norm_num [qexp]) (by norm_num) (by norm_num) (by norm_num) (by decide +kernel) (by norm_num) (by norm_num)
    (.inr rfl) 1 4 (by norm_num) ⟨rfl, rfl, by decide +kernel⟩ ?_
  have hw : winw2 (2 / 5 : ℚ) (2 / 5) = 1 := by decide +kernel
  rw [hw]
  intro W hW i hi j hj
  have e : (window qexp (2 / 5) (2 / 5) (1 / 2) 1).toOption.all (fun W => decide (∀ i < 3, ∀ j < 3,
    1 / 10 ^ 4 < ws 1 W.v (mask2 true true true true false 3 3 1) i j)) = true := by decide +kernel
  rw [hW] at e
  simp only [Except.toOption, Option.all_some, decide_eq_true_eq] at e
  exact e i hi j hj

example : ∃ r r', gridDensity2 linConv qexp 1 1 false false false false (2 / 5) (1 / 3) (1 / 2) twoBins = .ok r ∧
    gridDensity2 linConv qexp 1 1 false false false false (2 / 5) (1 / 3) (1 / 2) (scale (10 ^ 20) twoBins) = .ok r' ∧
    0 < r.v 0 0 ∧ 0 < r.v 0 3 ∧ r'.v 0 3 / r'.v 0 0 = 10 ^ 20 * (r.v 0 3 / r.v 0 0) :=
  bias_scale_fails linConv_ok qexp_pos qexp_le 1 (by norm_num) (by norm_num) (by norm_num) (by decide +kernel) (by norm_num)

example : bandChoice (1 / 5 : ℚ) (99 / 100) (9 / 10) true true = .fixed ∧ bandChoice (1 / 5 : ℚ) (99 / 100) (-9 / 10) true true = .optimized ∧
    bandChoice (1 / 5 : ℚ) (99 / 100) (9 / 10) true false = .sheared ∧ bandChoice (1 / 5 : ℚ) (99 / 100) (-9 / 10) true false = .sheared := by decide +kernel

example : fineBins 256 (9 / 10 : ℚ) (1 / 3) = 576 ∧ fineBins 256 (1 / 2 : ℚ) (9 / 10) = 256 ∧ nbin2D 40 (9 / 20 : ℚ) = 89 ∧
    winw2 (2 : ℚ) (5 / 2) = 6 ∧ clampCorr (99 / 100 : ℚ) (-1) = -99 / 100 ∧ smooth2 (3 / 10 : ℚ) 7 2 (1 / 10) 256 40 = 6 := by decide +kernel

/-- a density `4 + 2 x + y` with a lower limit in x: the first column is half outside -/
def planeHist : Arr ℚ := ⟨4, 5, fun i j => (if j = 0 then 1 / 2 else 1) * (4 + 2 * j + i)⟩

example : ∃ P r0 r, run2 linConv planeHist ⟨3, 3, fun _ _ => 1 / 9⟩ .same = .ok P ∧
    edgeCorrect2 linConv qexp 0 true false false false 1 ⟨3, 3, fun _ _ => 1 / 9⟩ planeHist P = .ok r0 ∧
    edgeCorrect2 linConv qexp 1 true false false false 1 ⟨3, 3, fun _ _ => 1 / 9⟩ planeHist P = .ok r ∧
    ((r.v 2 0 = P.v 2 0 ∧ r0.v 2 0 = P.v 2 0 ∧ aF ⟨3, 3, fun _ _ => 1 / 9⟩ true false false false 4 5 1 0 0 2 0 * P.v 2 0 ≤ maxA P / 10 ^ 8) ∨
      r.v 2 0 = r0.v 2 0 * qexp (min ((4 + 2 * (0 : Nat) + 1 * (2 : Nat)) / r0.v 2 0) 4 - 1)) := by
  obtain ⟨P, r0, r, h1, h2, h3, -, -, h⟩ := plane_exact_run (exp := qexp) (W := ⟨3, 3, fun _ _ => 1 / 9⟩) (hist := planeHist) (xb := true) (xt := false)
    (yb := false) (yt := false) (w := 1) (m := 4) (n := 5) linConv_ok rfl rfl (fun _ _ => by norm_num) (by norm_num) (by norm_num) (by norm_num) 4 2 1
    ⟨rfl, rfl, by decide +kernel⟩ rfl
  exact ⟨P, r0, r, h1, h2, h3, h 2 (by norm_num) 0 (by norm_num) (.inr (by norm_num)) (.inr (by norm_num)) (.inl rfl) (.inr (by norm_num))⟩

end Verif.Kde2D
