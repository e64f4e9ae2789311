import Verif.Model.AutoCorr
import Verif.Props.Convolve

/-!
# C84: auto-correlations and effective numbers of samples
-/

set_option linter.unusedSectionVars false

namespace Verif.AutoCorr
open Verif.Py (NErr)
open Verif.Convolve (autoConvolve AutoOk autoLin autoConvolve_spec autoConvolve_large ent)

variable {K : Type} [Field K] [LinearOrder K] [IsStrictOrderedRing K]

/-! ## Specification -/

/-- weighted mean and variance -/
def specMean (w x : List K) : K := ((List.range w.length).map (fun i => at' w i * at' x i)).sum / w.sum
def specVar (w x : List K) : K := ((List.range w.length).map (fun i => at' w i * (at' x i - specMean w x) ^ 2)).sum / w.sum

/-- mean over all pairs of rows `k` apart of the product of the weighted differences from the mean -/
def pairMean (w x : List K) (k : Nat) : K :=
  ((List.range (w.length - k)).map (fun i => (at' w i * (at' x i - specMean w x)) * (at' w (i + k) * (at' x (i + k) - specMean w x)))).sum / ((w.length - k : Nat) : K)

/-! ## sums -/

theorem zip_range (l r : List K) (h : l.length = r.length) : List.zipWith (· * ·) l r = (List.range l.length).map (fun i => at' l i * at' r i) := by
  apply List.ext_getElem
  · simp [h]
  · intro i h1 h2
    simp at h1 h2
    simp [at', List.getD_eq_getElem?_getD, h1.1, h1.2]

theorem sum_map_mul (c : K) {α : Type} (f : α → K) (l : List α) : (l.map (fun x => c * f x)).sum = c * (l.map f).sum := by
  induction l with
  | nil => simp
  | cons a l ih => simp [ih, mul_add]

theorem sum_map_add {α : Type} (f g : α → K) (l : List α) : (l.map (fun x => f x + g x)).sum = (l.map f).sum + (l.map g).sum := by
  induction l with
  | nil => simp
  | cons a l ih => simp [ih]; ring

theorem sum_nonneg' {α : Type} (f : α → K) (l : List α) (h : ∀ a ∈ l, 0 ≤ f a) : 0 ≤ (l.map f).sum := by
  induction l with
  | nil => simp
  | cons a l ih =>
    have := ih (fun b hb => h b (by simp [hb]))
    have := h a (by simp)
    simp; linarith

theorem sum_zero' {α : Type} (f : α → K) (l : List α) (h : ∀ a ∈ l, 0 ≤ f a) : (l.map f).sum = 0 ↔ ∀ a ∈ l, f a = 0 := by
  induction l with
  | nil => simp
  | cons a l ih =>
    have h1 := sum_nonneg' f l (fun b hb => h b (by simp [hb]))
    have h2 := h a (by simp)
    have ih := ih (fun b hb => h b (by simp [hb]))
    simp only [List.map_cons, List.sum_cons, List.mem_cons, forall_eq_or_imp]
    rw [← ih]
    constructor
    · intro e; constructor <;> linarith
    · rintro ⟨e1, e2⟩; linarith

theorem mean_eq (s : WS K) (x : List K) (h : x.length = s.weights.length) : mean s x = specMean s.weights x := by
  unfold mean specMean norm
  rw [zip_range _ _ h.symm]

theorem at_map {f : K → K} (l : List K) (i : Nat) (h : i < l.length) : at' (l.map f) i = f (at' l i) := by
  simp [at', List.getD_eq_getElem?_getD, h]

theorem var_eq (s : WS K) (x : List K) (h : x.length = s.weights.length) : var s x = specVar s.weights x := by
  unfold var specVar norm
  congr 1
  rw [zip_range _ _ (by simp [meanDiff, h])]
  simp only [List.length_map, meanDiff, h]
  congr 1
  apply List.map_congr_left
  intro i hi
  have hi' := List.mem_range.mp hi
  rw [at_map _ _ (by simp [h, hi']), at_map _ _ (by rw [h]; exact hi'), mean_eq s x h]
  ring

/-! ## auto-correlations -/

theorem d_at (s : WS K) (x : List K) (h : x.length = s.weights.length) (i : Nat) (hi : i < s.weights.length) :
    ent (List.zipWith (· * ·) (meanDiff s x) s.weights) i = at' s.weights i * (at' x i - specMean s.weights x) := by
  rw [zip_range _ _ (by simp [meanDiff, h])]
  have hl : (meanDiff s x).length = s.weights.length := by simp [meanDiff, h]
  unfold ent
  rw [hl, List.getD_eq_getElem?_getD]
  simp only [List.getElem?_map, List.getElem?_range hi, Option.map_some, Option.getD_some]
  rw [meanDiff, at_map _ _ (by rw [h]; exact hi), mean_eq s x h]
  ring

theorem autoLin_eq (s : WS K) (x : List K) (h : x.length = s.weights.length) (k : Nat) :
    autoLin (List.zipWith (· * ·) (meanDiff s x) s.weights) k / ((s.weights.length - k : Nat) : K) = pairMean s.weights x k := by
  unfold autoLin pairMean
  have hl : (List.zipWith (· * ·) (meanDiff s x) s.weights).length = s.weights.length := by simp [meanDiff, h]
  rw [hl]
  congr 2
  apply List.map_congr_left
  intro i hi
  have := List.mem_range.mp hi
  rw [d_at s x h i (by omega), d_at s x h (i + k) (by omega)]

variable {pack : List K → Nat → List K} {idct1 : List K → List K}

/-- **C84** Entry `k` of the auto-correlation is the mean product of weighted differences `k` rows apart, divided by the variance if
normalised, and by the mean weight in weight units. -/
theorem autocorr_spec (ho : AutoOk pack idct1) (s : WS K) (x : List K) (h : x.length = s.weights.length) (m : Nat) (hm : m < s.weights.length)
    (hbig : 2 * s.weights.length ≤ 2013265920) (wu nm : Bool) :
    autocorr pack idct1 s x (some m) wu nm = .ok ((List.range (m + 1)).map (fun k =>
      pairMean s.weights x k / (if nm then specVar s.weights x else 1) / (if wu then s.weights.sum / (s.weights.length : K) else 1))) := by
  have hl : (List.zipWith (· * ·) (meanDiff s x) s.weights).length = s.weights.length := by simp [meanDiff, h]
  have hne : List.zipWith (· * ·) (meanDiff s x) s.weights ≠ [] := by
    intro e; rw [e] at hl; simp at hl; omega
  unfold autocorr
  dsimp only
  rw [autoConvolve_spec ho (by omega) hne (by omega), hl, if_neg (by omega)]
  simp only [if_true]
  have hk : ∀ k, autoLin (List.zipWith (· * ·) (meanDiff s x) s.weights) k / ((s.weights.length - k : Nat) : K) = pairMean s.weights x k := autoLin_eq s x h
  simp only [hk, bind, Except.bind, pure, Except.pure]
  have hn : (s.weights.length : K) ≠ 0 := by
    have : 0 < s.weights.length := by omega
    exact_mod_cast this.ne'
  congr 1
  cases nm <;> cases wu <;> simp only [Bool.false_eq_true, if_false, if_true, List.map_map, var_eq s x h] <;> apply List.map_congr_left <;>
    intro k _ <;> simp only [Function.comp_apply, norm, div_one]
  · rw [div_div_eq_mul_div]
  · rw [div_div_eq_mul_div]

/-- **C84** Fails by default: the number of entries is the number of parameters, not of rows. -/
theorem autocorr_default_fails (ho : AutoOk pack idct1) (s : WS K) (x : List K) (h : x.length = s.weights.length) (hn : 0 < s.n) (hm : s.n ≤ s.weights.length)
    (hbig : 2 * s.weights.length ≤ 2013265920) (wu nm : Bool) : ∃ l, autocorr pack idct1 s x none wu nm = .ok l ∧ l.length = s.n := by
  have e : autocorr pack idct1 s x none wu nm = autocorr pack idct1 s x (some (s.n - 1)) wu nm := rfl
  rw [e, autocorr_spec ho s x h _ (by omega) hbig]
  exact ⟨_, rfl, by simp; omega⟩

/-- **C84** Fails by default with more parameters than rows: an error. -/
theorem autocorr_default_error_fails (s : WS K) (x : List K) (h : x.length = s.weights.length) (hm : s.weights.length < s.n)
    (hbig : 2 * s.weights.length ≤ 2013265920) (wu nm : Bool) : autocorr pack idct1 s x none wu nm = .error .valueError := by
  have hl : (List.zipWith (· * ·) (meanDiff s x) s.weights).length = s.weights.length := by simp [meanDiff, h]
  unfold autocorr
  dsimp only
  rw [autoConvolve_large (by omega) (by omega)]
  rfl

/-! ## correlation length -/

theorem findIdx_first {l : List Bool} {i : Nat} (h : i < l.length) (hi : l[i] = false) (hlt : ∀ k (hk : k < i), l[k]'(by omega) = true) :
    l.findIdx (fun b => !b) = i := by
  rw [List.findIdx_eq h]
  constructor
  · simp [hi]
  · intro j hj; simp [hlt j hj]

theorem take_sum (l : List K) (n : Nat) (h : n < l.length) : ((l.take n).drop 1).sum = ((List.range' 1 (n - 1)).map (at' l)).sum := by
  congr 1
  apply List.ext_getElem
  · simp; omega
  · intro i h1 h2
    simp at h1 h2
    simp [at', List.getD_eq_getElem?_getD, Nat.add_comm, show i + 1 < l.length by omega]

/-- **C84** The correlation length is the correlation at zero plus twice the correlations up to the first that is at most the given part of
that at zero, if there is one. -/
theorem length_spec (mc : K) (corr : List K) (ix : Nat) (h : ix < corr.length) (hi : at' corr ix ≤ mc * at' corr 0) (hlt : ∀ k < ix, mc * at' corr 0 < at' corr k) :
    lengthOf mc corr = at' corr 0 + 2 * ((List.range' 1 (ix - 1)).map (at' corr)).sum := by
  have hat : ∀ k (hk : k < corr.length), corr[k] = at' corr k := by
    intro k hk; simp [at', List.getD_eq_getElem?_getD, hk]
  have hf : (corr.map (fun c => decide (c > mc * at' corr 0))).findIdx (fun b => !b) = ix := by
    apply findIdx_first (by simpa using h)
    · rw [List.getElem_map, hat _ h, decide_eq_false_iff_not, gt_iff_lt, not_lt]; exact hi
    · intro k hk
      rw [List.getElem_map, hat _ (by omega), decide_eq_true_eq]
      exact hlt k hk
  unfold lengthOf argminBool
  simp only [hf, List.length_map, if_pos h]
  rw [take_sum corr ix h]

/-- **C84** Fails when the correlations stay above that: the length is the correlation at zero alone, as if the samples were independent. -/
theorem length_never_fails (mc : K) (corr : List K) (h : ∀ k < corr.length, mc * at' corr 0 < at' corr k) : lengthOf mc corr = at' corr 0 := by
  have hf : (corr.map (fun c => decide (c > mc * at' corr 0))).findIdx (fun b => !b) = corr.length := by
    have e : (corr.map (fun c => decide (c > mc * at' corr 0))).length = corr.length := by simp
    rw [← e]
    apply List.findIdx_eq_length_of_false
    intro b hb
    obtain ⟨c, hc, rfl⟩ := List.mem_map.mp hb
    obtain ⟨k, hk, rfl⟩ := List.mem_iff_getElem.mp hc
    have := h k hk
    simp [at', List.getD_eq_getElem?_getD, hk] at this ⊢
    exact this
  unfold lengthOf argminBool
  simp only [hf, List.length_map, lt_irrefl, if_false]
  simp

theorem length_scale (mc c : K) (hc : 0 < c) (corr : List K) : lengthOf mc (corr.map (c * ·)) = c * lengthOf mc corr := by
  have h0 : at' (corr.map (c * ·)) 0 = c * at' corr 0 := by
    cases corr <;> simp [at']
  have hl : (corr.map (c * ·)).map (fun a => decide (a > mc * (c * at' corr 0))) = corr.map (fun a => decide (a > mc * at' corr 0)) := by
    rw [List.map_map]
    apply List.map_congr_left
    intro a _
    simp only [Function.comp_apply, gt_iff_lt, decide_eq_decide]
    rw [show mc * (c * at' corr 0) = c * (mc * at' corr 0) by ring, mul_lt_mul_iff_right₀ hc]
  unfold lengthOf
  rw [h0, hl]
  dsimp only
  rw [← List.map_take, ← List.map_drop, sum_map_mul (f := fun x => x), List.map_id']
  ring

/-! ## units -/

theorem specMean_affine (w x : List K) (a b : K) (h : x.length = w.length) (hw : w.sum ≠ 0) : specMean w (x.map (fun v => a * v + b)) = a * specMean w x + b := by
  unfold specMean
  have : (List.range w.length).map (fun i => at' w i * at' (x.map (fun v => a * v + b)) i) = (List.range w.length).map (fun i => a * (at' w i * at' x i) + b * at' w i) := by
    apply List.map_congr_left
    intro i hi
    rw [at_map _ _ (by rw [h]; exact List.mem_range.mp hi)]; ring
  have hsum : ((List.range w.length).map (fun i => at' w i)).sum = w.sum := by
    congr 1
    apply List.ext_getElem
    · simp
    · intro i h1 h2
      simp [at', List.getD_eq_getElem?_getD, h2]
  rw [this, sum_map_add, sum_map_mul, sum_map_mul, hsum]
  field_simp

theorem pairMean_affine (w x : List K) (a b : K) (h : x.length = w.length) (hw : w.sum ≠ 0) (k : Nat) : pairMean w (x.map (fun v => a * v + b)) k = a ^ 2 * pairMean w x k := by
  unfold pairMean
  rw [specMean_affine w x a b h hw, ← mul_div_assoc, ← sum_map_mul]
  congr 2
  apply List.map_congr_left
  intro i hi
  have := List.mem_range.mp hi
  rw [at_map _ _ (by omega), at_map _ _ (by omega)]; ring

theorem specVar_affine (w x : List K) (a b : K) (h : x.length = w.length) (hw : w.sum ≠ 0) : specVar w (x.map (fun v => a * v + b)) = a ^ 2 * specVar w x := by
  unfold specVar
  rw [specMean_affine w x a b h hw, ← mul_div_assoc, ← sum_map_mul]
  congr 2
  apply List.map_congr_left
  intro i hi
  have := List.mem_range.mp hi
  rw [at_map _ _ (by omega)]; ring

theorem specMean_weight (w x : List K) (c : K) (hc : c ≠ 0) : specMean (w.map (c * ·)) x = specMean w x := by
  unfold specMean
  have : (List.range (w.map (c * ·)).length).map (fun i => at' (w.map (c * ·)) i * at' x i) = (List.range w.length).map (fun i => c * (at' w i * at' x i)) := by
    rw [List.length_map]
    apply List.map_congr_left
    intro i hi
    rw [at_map _ _ (List.mem_range.mp hi)]; ring
  rw [this, sum_map_mul, sum_map_mul (f := fun x => x), List.map_id', mul_div_mul_left _ _ hc]

theorem pairMean_weight (w x : List K) (c : K) (hc : c ≠ 0) (k : Nat) : pairMean (w.map (c * ·)) x k = c ^ 2 * pairMean w x k := by
  unfold pairMean
  rw [specMean_weight w x c hc, List.length_map, ← mul_div_assoc, ← sum_map_mul]
  congr 2
  apply List.map_congr_left
  intro i hi
  have := List.mem_range.mp hi
  rw [at_map _ _ (by omega), at_map _ _ (by omega)]; ring

theorem specVar_weight (w x : List K) (c : K) (hc : c ≠ 0) : specVar (w.map (c * ·)) x = specVar w x := by
  unfold specVar
  rw [specMean_weight w x c hc]
  have : (List.range (w.map (c * ·)).length).map (fun i => at' (w.map (c * ·)) i * (at' x i - specMean w x) ^ 2) =
      (List.range w.length).map (fun i => c * (at' w i * (at' x i - specMean w x) ^ 2)) := by
    rw [List.length_map]
    apply List.map_congr_left
    intro i hi
    rw [at_map _ _ (List.mem_range.mp hi)]; ring
  rw [this, sum_map_mul, sum_map_mul (f := fun x => x), List.map_id', mul_div_mul_left _ _ hc]

/-- **C84** The effective number of samples does not change with the units or the zero point of the parameter. -/
theorem effective_affine (ho : AutoOk pack idct1) (s : WS K) (x : List K) (a b mc : K) (ha : a ≠ 0) (h : x.length = s.weights.length) (hne : 0 < s.weights.length)
    (hw : s.weights.sum ≠ 0) (hbig : 2 * s.weights.length ≤ 2013265920) :
    effective pack idct1 s (x.map (fun v => a * v + b)) mc = effective pack idct1 s x mc := by
  unfold effective corrLength
  have hm : s.numrows / 10 < s.weights.length := by unfold WS.numrows; omega
  rw [autocorr_spec ho s x h _ hm hbig, autocorr_spec ho s _ (by simpa using h) _ hm hbig]
  simp only [if_true]
  have : ∀ k, pairMean s.weights (x.map (fun v => a * v + b)) k / specVar s.weights (x.map (fun v => a * v + b)) = pairMean s.weights x k / specVar s.weights x := by
    intro k
    rw [pairMean_affine _ _ _ _ h hw, specVar_affine _ _ _ _ h hw, mul_div_mul_left _ _ (pow_ne_zero 2 ha)]
  simp only [this]

/-- **C84** The effective number of samples does not change when all weights are multiplied by a positive number. -/
theorem effective_weight (ho : AutoOk pack idct1) (s : WS K) (x : List K) (c mc : K) (hc : 0 < c) (h : x.length = s.weights.length) (hne : 0 < s.weights.length)
    (hbig : 2 * s.weights.length ≤ 2013265920) :
    effective pack idct1 { s with weights := s.weights.map (c * ·) } x mc = effective pack idct1 s x mc := by
  unfold effective corrLength
  have hm : s.numrows / 10 < s.weights.length := by unfold WS.numrows; omega
  have hr : WS.numrows { s with weights := s.weights.map (c * ·) } = s.numrows := by simp [WS.numrows]
  rw [hr, autocorr_spec ho s x h _ hm hbig, autocorr_spec ho _ x (by simpa using h) _ (by simpa using hm) (by simpa using hbig)]
  simp only [if_true, bind, Except.bind, pure, Except.pure, norm]
  have hsum : (s.weights.map (c * ·)).sum = c * s.weights.sum := by
    rw [sum_map_mul (f := fun x => x), List.map_id']
  have e : (List.range (s.numrows / 10 + 1)).map (fun k => pairMean (s.weights.map (c * ·)) x k / specVar (s.weights.map (c * ·)) x /
        ((s.weights.map (c * ·)).sum / (((s.weights.map (c * ·)).length : Nat) : K))) =
      ((List.range (s.numrows / 10 + 1)).map (fun k => pairMean s.weights x k / specVar s.weights x / (s.weights.sum / (s.weights.length : K)))).map (c * ·) := by
    rw [List.map_map]
    apply List.map_congr_left
    intro k _
    rw [pairMean_weight _ _ _ hc.ne', specVar_weight _ _ _ hc.ne', hsum, List.length_map, Function.comp_apply]
    by_cases hs : s.weights.sum = 0
    · rw [hs]; simp
    by_cases hv : specVar s.weights x = 0
    · rw [hv]; simp
    by_cases hn : (s.weights.length : K) = 0
    · rw [hn]; simp
    have := hc.ne'
    field_simp
  rw [e, length_scale mc c hc, hsum, mul_div_mul_left _ _ hc.ne']

/-! ## uncorrelated samples -/

theorem sq_eq (w : List K) : List.zipWith (· * ·) w w = w.map (fun v => v ^ 2) := by
  induction w with
  | nil => rfl
  | cons a w ih => simp [pow_two]

theorem variance_id (w : List K) (m : K) : (w.map (fun v => (v - m) ^ 2)).sum = (w.map (fun v => v ^ 2)).sum - 2 * m * w.sum + w.length * m ^ 2 := by
  induction w with
  | nil => simp
  | cons a w ih => simp [ih]; ring

/-- **C84** For uncorrelated samples the effective number is positive and at most the number of rows, and equal to it exactly for equal weights. -/
theorem uncorrelated_bounds (s : WS K) (hpos : ∀ v ∈ s.weights, 0 ≤ v) (hsum : 0 < s.weights.sum) :
    0 < effUncorrelated s ∧ effUncorrelated s ≤ s.weights.length ∧
      (effUncorrelated s = s.weights.length ↔ ∀ v ∈ s.weights, ∀ u ∈ s.weights, v = u) := by
  unfold effUncorrelated norm
  rw [sq_eq]
  set w := s.weights
  have hne : w ≠ [] := by rintro e; rw [e] at hsum; simp at hsum
  have hlen : (0 : K) < w.length := by exact_mod_cast List.length_pos_of_ne_nil hne
  have hq : 0 < (w.map (fun v => v ^ 2)).sum := by
    rcases (sum_nonneg' (fun v : K => v ^ 2) w (fun v _ => sq_nonneg v)).lt_or_eq with h | h
    · exact h
    · exfalso
      have := (sum_zero' (fun v : K => v ^ 2) w (fun v _ => sq_nonneg v)).mp h.symm
      have h0 : w.sum = 0 := by
        have := (sum_zero' (fun v : K => v) w hpos).mpr (fun v hv => by simpa using this v hv)
        simpa using this
      rw [h0] at hsum; exact lt_irrefl _ hsum
  have hid := variance_id w (w.sum / w.length)
  have hid' : (w.map (fun v => (v - w.sum / w.length) ^ 2)).sum = (w.map (fun v => v ^ 2)).sum - w.sum ^ 2 / w.length := by
    rw [hid]; field_simp; ring
  have hnn := sum_nonneg' (fun v : K => (v - w.sum / w.length) ^ 2) w (fun v _ => sq_nonneg _)
  refine ⟨by positivity, ?_, ?_⟩
  · rw [div_le_iff₀ hq]
    rw [hid', sub_nonneg, div_le_iff₀ hlen] at hnn
    linarith
  · rw [div_eq_iff hq.ne']
    have : w.sum ^ 2 = w.length * (w.map (fun v => v ^ 2)).sum ↔ (w.map (fun v => (v - w.sum / w.length) ^ 2)).sum = 0 := by
      rw [hid', sub_eq_zero, eq_div_iff hlen.ne']
      constructor <;> intro h <;> linarith
    rw [this, sum_zero' _ _ (fun v _ => sq_nonneg _)]
    constructor
    · intro h v hv u hu
      have h1 := pow_eq_zero_iff (two_ne_zero) |>.mp (h v hv)
      have h2 := pow_eq_zero_iff (two_ne_zero) |>.mp (h u hu)
      linarith
    · intro h v hv
      have hs : ∀ l : List K, (∀ u ∈ l, u = v) → l.sum = l.length * v := by
        intro l hl
        induction l with
        | nil => simp
        | cons a l ih =>
          have := ih (fun u hu => hl u (by simp [hu]))
          have := hl a (by simp)
          simp_all; ring
      rw [hs w (fun u hu => h u hu v hv)]
      field_simp
      ring

/-! ## kernel density estimates -/

theorem cumulate_ge (corr : Nat → K) (t : K) (ht : 0 ≤ t) (maxoff step fuel k : Nat) (acc : K) : acc ≤ cumulate corr t maxoff step fuel k acc := by
  induction fuel generalizing k acc with
  | zero => exact le_refl _
  | succ f ih =>
    unfold cumulate
    split
    · exact le_refl _
    split
    · exact le_refl _
    · rename_i h
      rw [not_lt] at h
      refine le_trans ?_ (ih _ _)
      have hc : 0 ≤ corr k := le_trans ht h
      have hs : (0 : K) ≤ step := Nat.cast_nonneg _
      have := mul_nonneg hc hs
      split <;> linarith

theorem sumCorr_ge (c0 mc : K) (corr : Nat → K) (maxoff : Nat) (h : 0 ≤ mc * c0) (N : K) (hN : sumCorr c0 corr mc maxoff = .ok N) : c0 ≤ N := by
  unfold sumCorr at hN
  dsimp only at hN
  split at hN
  · cases hN
  split at hN
  · injection hN with hN; exact hN.le
  rename_i h1
  rw [not_lt] at h1
  split at hN
  · cases hN
  split at hN
  · rename_i h2
    injection hN with hN
    rw [← hN]
    have := cumulate_ge corr (mc * c0) h maxoff (stepSize (shrink corr (mc * c0) maxoff maxoff)) maxoff 3 (corr 1 + corr 2)
    have : mc * c0 < corr 2 := h2
    linarith
  · injection hN with hN
    rw [← hN]; linarith

/-- **C84** The effective number for kernel density estimates is positive and never above that of uncorrelated samples. -/
theorem kde_bounds (ker : K → K) (s : WS K) (d : List K) (h : K) (scale : Option K) (maxoff : Nat) (mc : K) (hmc : 0 ≤ mc) (hsum : s.weights.sum ≠ 0)
    (N : K) (hN : effKDE ker s d h scale maxoff mc = .ok N) : 0 < N ∧ N ≤ effUncorrelated s := by
  unfold effKDE at hN
  dsimp only at hN
  have hq : 0 < (List.zipWith (· * ·) s.weights s.weights).sum := by
    rw [sq_eq]
    rcases (sum_nonneg' (fun v : K => v ^ 2) s.weights (fun v _ => sq_nonneg v)).lt_or_eq with h | h
    · exact h
    · exfalso
      have h1 := (sum_zero' (fun v : K => v ^ 2) s.weights (fun v _ => sq_nonneg v)).mp h.symm
      apply hsum
      have h2 : s.weights.map (fun v => v) = s.weights.map (fun _ => (0 : K)) := List.map_congr_left (fun v hv => by simpa using h1 v hv)
      rw [List.map_id'] at h2
      rw [h2]; simp
  set c0 := (List.zipWith (· * ·) s.weights s.weights).sum with hc0
  cases hS : sumCorr c0 (corrK (lagSum ker s.weights d (kernelVar s d h scale)) s.numrows) mc
      (min maxoff (s.numrows / 10)) with
  | error e => rw [hS] at hN; cases hN
  | ok M =>
    rw [hS] at hN
    have hge := sumCorr_ge c0 mc _ _ (mul_nonneg hmc hq.le) M hS
    have : N = norm s ^ 2 / M := by
      have : (Except.ok (norm s ^ 2 / M) : Except NErr K) = .ok N := hN
      injection this with this; exact this.symm
    rw [this]
    have hn2 : 0 < norm s ^ 2 := by
      have : norm s ≠ 0 := hsum
      positivity
    have hM : 0 < M := lt_of_lt_of_le hq hge
    refine ⟨div_pos hn2 hM, ?_⟩
    unfold effUncorrelated
    exact div_le_div_of_nonneg_left hn2.le hq hge

/-- **C84** The effective number for kernel density estimates, with the width of the kernel taken from the samples, does not change with the
units or the zero point of the parameter. -/
theorem kde_affine (ker : K → K) (s : WS K) (d : List K) (h a b : K) (ha : a ≠ 0) (hd : d.length = s.weights.length) (hsum : s.weights.sum ≠ 0) (maxoff : Nat) (mc : K) :
    effKDE ker s (d.map (fun v => a * v + b)) h none maxoff mc = effKDE ker s d h none maxoff mc := by
  have hkv : kernelVar s (d.map (fun v => a * v + b)) h none = a ^ 2 * kernelVar s d h none := by
    unfold kernelVar
    dsimp only
    rw [var_eq s _ (by simpa using hd), var_eq s d hd, specVar_affine _ _ _ _ hd hsum]; ring
  have hlag : lagSum ker s.weights (d.map (fun v => a * v + b)) (kernelVar s (d.map (fun v => a * v + b)) h none) = lagSum ker s.weights d (kernelVar s d h none) := by
    funext k
    unfold lagSum
    congr 1
    apply List.map_congr_left
    intro i hi
    have := List.mem_range.mp hi
    rw [at_map _ _ (by omega), at_map _ _ (by omega), hkv,
      show (a * at' d i + b - (a * at' d (i + k) + b)) ^ 2 = a ^ 2 * (at' d i - at' d (i + k)) ^ 2 by ring, mul_div_mul_left _ _ (pow_ne_zero 2 ha)]
  unfold effKDE
  dsimp only
  rw [hlag]

/-- **C84** Fails for fewer than ten rows: an index error, for any samples. -/
theorem kde_few_fails (ker : K → K) (s : WS K) (d : List K) (h : K) (scale : Option K) (maxoff : Nat) (mc : K) (hr : s.numrows < 10) :
    effKDE ker s d h scale maxoff mc = .error .indexError := by
  have : s.numrows / 10 = 0 := by omega
  unfold effKDE sumCorr
  rw [this]
  simp [bind, Except.bind]

/-- the calculation the code is meant to approximate: `N1` of chains.py:524-531 -/
def reference (c0 : K) (corr : Nat → K) (t : K) (maxoff : Nat) : K :=
  c0 + 2 * (((List.range' 1 maxoff).map corr).takeWhile (fun c => !decide (c < t))).sum

theorem cumulate_one (corr : Nat → K) (t : K) (maxoff fuel k : Nat) (acc : K) (hk : 3 < k) (hf : maxoff < fuel + k) :
    cumulate corr t maxoff 1 fuel k acc = acc + (((List.range' k (maxoff + 1 - k)).map corr).takeWhile (fun c => !decide (c < t))).sum := by
  induction fuel generalizing k acc with
  | zero =>
    rw [show maxoff + 1 - k = 0 by omega]
    simp [cumulate]
  | succ f ih =>
    unfold cumulate
    by_cases h : k > maxoff
    · rw [if_pos h, show maxoff + 1 - k = 0 by omega]; simp
    · rw [if_neg h, show maxoff + 1 - k = (maxoff + 1 - (k + 1)) + 1 by omega, List.range'_succ, List.map_cons, List.takeWhile_cons]
      by_cases h1 : corr k < t
      · simp [h1]
      · rw [if_neg h1, ih (k + 1) _ (by omega) (by omega), if_pos hk]
        simp [h1]
        ring

/-- **C84** Fails to be the calculation it stands for: even with steps of one, the correlation three rows apart is counted half, for all
samples with correlations above the threshold up to there. -/
theorem kde_third_fails (c0 : K) (corr : Nat → K) (mc : K) (maxoff : Nat) (h3 : 3 ≤ maxoff) (h1 : mc * c0 ≤ corr 1) (h2 : mc * c0 < corr 2)
    (hc : mc * c0 ≤ corr 3) (hs : stepSize (shrink corr (mc * c0) maxoff maxoff) = 1) :
    sumCorr c0 corr mc maxoff = .ok (reference c0 corr (mc * c0) maxoff - corr 3) := by
  unfold sumCorr
  dsimp only
  rw [if_neg (by omega), if_neg (not_lt.mpr h1), if_neg (by omega), if_pos h2, hs]
  congr 1
  obtain ⟨f, hf⟩ : ∃ f, maxoff = f + 3 := ⟨maxoff - 3, by omega⟩
  have e : cumulate corr (mc * c0) maxoff 1 maxoff 3 (corr 1 + corr 2) =
      cumulate corr (mc * c0) maxoff 1 (maxoff - 1) 4 (corr 1 + corr 2 + corr 3 / 2) := by
    conv_lhs => rw [show cumulate corr (mc * c0) maxoff 1 maxoff 3 (corr 1 + corr 2) = cumulate corr (mc * c0) maxoff 1 (maxoff - 1 + 1) 3 (corr 1 + corr 2) by
      rw [show maxoff - 1 + 1 = maxoff by omega]]
    rw [cumulate, if_neg (by omega), if_neg (not_lt.mpr hc)]
    simp
  rw [e, cumulate_one _ _ _ _ _ _ (by omega) (by omega)]
  unfold reference
  have hr : List.range' 1 maxoff = 1 :: 2 :: 3 :: List.range' 4 (maxoff + 1 - 4) := by
    rw [hf, show f + 3 + 1 - 4 = f by omega]
    rfl
  rw [hr]
  simp only [List.map_cons, List.takeWhile_cons, decide_eq_false (not_lt.mpr h1), decide_eq_false (not_lt.mpr h2.le), decide_eq_false (not_lt.mpr hc),
    Bool.not_false, if_true, List.sum_cons]
  ring

theorem sum2D_nonneg (corr : Nat → K) (t : K) (ht : 0 ≤ t) (maxoff : Nat) : 0 ≤ sum2D corr t maxoff := by
  unfold sum2D
  have := sum_nonneg' (fun c : K => c) (((List.range maxoff).map (fun i => corr (i + 1))).takeWhile (fun c => !decide (c < t))) (fun c hc => by
    have hall := List.all_takeWhile (p := fun c => !decide (c < t)) (l := (List.range maxoff).map (fun i => corr (i + 1)))
    have := List.all_eq_true.mp hall c hc
    simp at this
    exact le_trans ht this)
  simpa using this

/-- **C84** The same in two dimensions, for any number of rows. -/
theorem kde2D_bounds (ker : K → K) (s : WS K) (d1 d2 : List K) (cov : K × K × K) (h : K) (maxoff : Nat) (mc : K) (hmc : 0 ≤ mc)
    (hpos : ∀ v ∈ s.weights, 0 ≤ v) (hsum : 0 < s.weights.sum) :
    0 < effKDE2D ker s d1 d2 cov h maxoff mc ∧ effKDE2D ker s d1 d2 cov h maxoff mc ≤ effUncorrelated s := by
  have hu := (uncorrelated_bounds s hpos hsum).1
  unfold effUncorrelated at hu
  have hn2 : 0 < norm s ^ 2 := by have : 0 < norm s := hsum; positivity
  have hq : 0 < (List.zipWith (· * ·) s.weights s.weights).sum := (div_pos_iff_of_pos_left hn2).mp hu
  unfold effKDE2D effUncorrelated
  dsimp only
  have h2 := sum2D_nonneg (corrK (lagSum2D ker s.weights d1 d2 (form2D cov h)) s.numrows) (mc * (List.zipWith (· * ·) s.weights s.weights).sum) (mul_nonneg hmc hq.le)
    (min maxoff (s.numrows / 10))
  refine ⟨div_pos hn2 (by linarith), div_le_div_of_nonneg_left hn2.le hq (by linarith)⟩

/-! ## examples -/

example : lengthOf (1/20 : ℚ) [1, 1/2, 1/4, 1/25, 1/2] = 5/2 ∧ lengthOf (1/20 : ℚ) [1, 1/2, 1/4] = 1 := by decide +kernel
example : effUncorrelated (⟨[1, 1, 2], 1⟩ : WS ℚ) = 8/3 ∧ effUncorrelated (⟨[2, 2], 1⟩ : WS ℚ) = 2 := by decide +kernel
example : sumCorr (1 : ℚ) (fun k => if k < 5 then 1/2 else 0) (1/20) 8 = .ok (1 + 2 * (1/2 + 1/2 + 1/4 + 1/2)) ∧
    reference (1 : ℚ) (fun k => if k < 5 then 1/2 else 0) (1/20) 8 = 5 := by
  constructor
  · have := kde_third_fails (1 : ℚ) (fun k => if k < 5 then 1/2 else 0) (1/20) 8 (by norm_num) (by norm_num) (by norm_num) (by norm_num) (by decide +kernel)
    rw [this]; decide +kernel
  · decide +kernel

end Verif.AutoCorr
