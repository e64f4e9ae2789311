import Verif.Props.Converge

/-!
# Variance of the chain means and correlations at given distances
-/

set_option linter.unusedSectionVars false

namespace Verif.Converge

section meanvar
open Verif.GelmanRubin
variable {m : Nat}

/-- the value of a parameter -/
def proj (j : Fin m) (x : Fin m → ℝ) : ℝ := x j

theorem foldl_sum {α : Type} (f : α → ℝ) (l : List α) (a : ℝ) : l.foldl (fun a c => a + f c) a = a + (l.map f).sum := by
  induction l generalizing a with
  | nil => simp
  | cons b l ih => simp [ih, add_assoc]

theorem means_eq (c : Chain m) (j : Fin m) : means c j = wmean (proj j) c := rfl

theorem between_eq (chains : List (Chain m)) (j : Fin m) : betweenVar chains j = between (proj j) (proj j) chains := by
  unfold betweenVar between
  rw [foldl_sum, zero_add]
  simp only [means_eq, pow_two]

theorem norm_flat (chains : List (Chain m)) (f : Row m → ℝ) : (chains.flatten.map f).sum = (chains.map (fun c => (c.map f).sum)).sum := by
  induction chains with
  | nil => simp
  | cons c cs ih => rw [List.flatten_cons, List.map_append, List.sum_append, ih, List.map_cons, List.sum_cons]

/-- the variance within the chains is the mean of the variances weighted by the chains' total weights -/
theorem in_eq (chains : List (Chain m)) (j : Fin m) (hw : Weighted chains) :
    inVar chains j = (chains.map (fun c => GelmanRubin.norm c * wcov (proj j) (proj j) c)).sum / (chains.map GelmanRubin.norm).sum := by
  unfold inVar
  rw [foldl_sum, zero_add]
  have h2 : GelmanRubin.norm chains.flatten = (chains.map GelmanRubin.norm).sum := norm_flat chains _
  rw [h2]
  congr 2
  apply List.map_congr_left
  intro c hc
  have := (hw c hc).2.ne'
  unfold wcov GelmanRubin.norm
  rw [mul_div_cancel₀ _ this]
  simp only [means_eq, pow_two, proj]

theorem norm_pos (chains : List (Chain m)) (hw : Weighted chains) (hne : chains ≠ []) : 0 < (chains.map GelmanRubin.norm).sum := by
  have := norm_flatten chains hw hne
  rwa [norm_flat] at this

theorem in_nonneg (chains : List (Chain m)) (j : Fin m) (hw : Weighted chains) (hne : chains ≠ []) : 0 ≤ inVar chains j := by
  rw [in_eq chains j hw]
  exact div_nonneg (sum_nonneg' _ _ (fun c hc => mul_nonneg (hw c hc).2.le (wcov_nonneg _ c (hw c hc).1 (hw c hc).2))) (norm_pos chains hw hne).le

/-- **C139** The number printed is the ratio of the standard deviation of the chain means to the root of the mean variance within chains. -/
theorem meanVar_spec (chains : List (Chain m)) (j : Fin m) (hw : Weighted chains) (hl : 2 ≤ chains.length) (r : ℝ) :
    meanVar chains j = some r ↔ 0 ≤ r ∧ inVar chains j ≠ 0 ∧
      r ^ 2 * ((chains.map (fun c => GelmanRubin.norm c * wcov (proj j) (proj j) c)).sum / (chains.map GelmanRubin.norm).sum) = between (proj j) (proj j) chains := by
  have hne : chains ≠ [] := by rintro rfl; simp at hl
  have hin := in_nonneg chains j hw hne
  have hb : 0 ≤ between (proj j) (proj j) chains := between_nonneg _ _ (by omega)
  rw [← in_eq chains j hw]
  unfold meanVar
  rw [between_eq]
  split
  · rename_i h0
    simp [h0]
  · rename_i h0
    simp only [Option.some.injEq, ne_eq, h0, not_false_eq_true, true_and]
    have hq : 0 ≤ between (proj j) (proj j) chains / inVar chains j := div_nonneg hb hin
    constructor
    · rintro rfl
      exact ⟨Real.sqrt_nonneg _, by rw [Real.sq_sqrt hq, div_mul_cancel₀ _ h0]⟩
    · rintro ⟨hr, h⟩
      rw [← h, mul_div_cancel_right₀ _ h0, Real.sqrt_sq hr]

/-- **C139** Not-a-number or infinity is given exactly if the parameter is constant in every chain. -/
theorem meanVar_none (chains : List (Chain m)) (j : Fin m) (hw : Weighted chains) (hne : chains ≠ []) :
    meanVar chains j = none ↔ Constant (proj j) chains := by
  have hp := norm_pos chains hw hne
  have h1 : meanVar chains j = none ↔ inVar chains j = 0 := by unfold meanVar; split <;> simp_all
  rw [h1, ← within_zero _ chains hw hne, in_eq chains j hw]
  have hlen : (chains.length : ℝ) ≠ 0 := by
    have := List.length_pos_of_ne_nil hne
    exact_mod_cast this.ne'
  unfold within
  rw [div_eq_zero_iff, div_eq_zero_iff, or_iff_left hp.ne', or_iff_left hlen,
    sum_zero' (fun c => GelmanRubin.norm c * wcov (proj j) (proj j) c) _ (fun c hc => mul_nonneg (hw c hc).2.le (wcov_nonneg _ c (hw c hc).1 (hw c hc).2)),
    sum_zero' (wcov (proj j) (proj j)) _ (fun c hc => wcov_nonneg _ c (hw c hc).1 (hw c hc).2)]
  refine forall₂_congr (fun c hc => ?_)
  rw [mul_eq_zero, or_iff_right (show GelmanRubin.norm c ≠ 0 from (hw c hc).2.ne')]

/-- **C139** The number is zero exactly if all chains have the same mean. -/
theorem meanVar_zero (chains : List (Chain m)) (j : Fin m) (hw : Weighted chains) (hl : 2 ≤ chains.length) (hc : ¬ Constant (proj j) chains) :
    meanVar chains j = some 0 ↔ ∀ c ∈ chains, ∀ d ∈ chains, wmean (proj j) c = wmean (proj j) d := by
  have hne : chains ≠ [] := by rintro rfl; simp at hl
  have h0 : inVar chains j ≠ 0 := by
    intro h
    exact hc ((meanVar_none chains j hw hne).mp (by unfold meanVar; rw [if_pos h]))
  rw [meanVar_spec chains j hw hl]
  have hd : (chains.length : ℝ) - 1 ≠ 0 := by
    have : (2 : ℝ) ≤ chains.length := by exact_mod_cast hl
    linarith
  have hb : between (proj j) (proj j) chains = 0 ↔ ∀ c ∈ chains, wmean (proj j) c = wmean (proj j) chains.flatten := by
    unfold between
    rw [div_eq_zero_iff, or_iff_left hd, sum_zero' _ _ (fun c _ => mul_self_nonneg _)]
    refine forall₂_congr (fun c _ => ?_)
    rw [mul_self_eq_zero, sub_eq_zero]
  constructor
  · rintro ⟨-, -, h⟩ c hc d hd
    have := hb.mp (by rw [← h]; ring)
    rw [this c hc, this d hd]
  · intro h
    refine ⟨le_rfl, h0, ?_⟩
    rw [hb.mpr]
    · ring
    · intro c hc
      exact (mean_of_flatten chains _ hw hne _ (fun d hd => h d hd c hc)).symm

/-- **C139** The variance of all samples is the one within chains plus the weighted one of the chain means. -/
theorem total_variance (chains : List (Chain m)) (j : Fin m) (hw : Weighted chains) :
    wcov (proj j) (proj j) chains.flatten = inVar chains j +
      (chains.map (fun c => GelmanRubin.norm c * (wmean (proj j) c - wmean (proj j) chains.flatten) ^ 2)).sum / (chains.map GelmanRubin.norm).sum := by
  rw [in_eq chains j hw, ← add_div, ← GelmanRubin.sum_map_add]
  have key : ∀ (c : Chain m) (a : ℝ), (c.map (fun r => r.1)).sum ≠ 0 → (c.map (fun r => r.1 * ((proj j r.2 - a) * (proj j r.2 - a)))).sum =
      GelmanRubin.norm c * wcov (proj j) (proj j) c + GelmanRubin.norm c * (wmean (proj j) c - a) ^ 2 := by
    intro c a hn
    have ex : ∀ b : ℝ, (c.map (fun r => r.1 * ((proj j r.2 - b) * (proj j r.2 - b)))).sum =
        (c.map (fun r => r.1 * (proj j r.2) ^ 2)).sum - 2 * b * (c.map (fun r => r.1 * proj j r.2)).sum + b ^ 2 * (c.map (fun r => r.1)).sum := by
      intro b
      induction c with
      | nil => simp
      | cons r c ih =>
        clear hn
        have ih' : (c.map (fun r => r.1 * ((proj j r.2 - b) * (proj j r.2 - b)))).sum =
          (c.map (fun r => r.1 * (proj j r.2) ^ 2)).sum - 2 * b * (c.map (fun r => r.1 * proj j r.2)).sum + b ^ 2 * (c.map (fun r => r.1)).sum := by
            clear ih
            induction c with
            | nil => simp
            | cons r c ih => simp only [List.map_cons, List.sum_cons, ih]; ring
        simp only [List.map_cons, List.sum_cons, ih']; ring
    unfold wcov GelmanRubin.norm
    rw [mul_div_cancel₀ _ hn, ex, ex]
    have hm : (c.map (fun r => r.1 * proj j r.2)).sum = wmean (proj j) c * (c.map (fun r => r.1)).sum := by
      unfold wmean; rw [div_mul_cancel₀ _ hn]
    rw [hm]; ring
  conv_lhs => unfold wcov
  rw [norm_flat, norm_flat]
  congr 2
  apply List.map_congr_left
  intro c hc
  exact key c _ (hw c hc).2.ne'

/-- **C139** For chains of the same total weight the square of the number is at most the `R - 1` reported, for every parameter that is used for it. -/
theorem meanVar_le_R {p : Nat} (h : p ≤ m) (hp : p ≠ 0) (eigh : CMBlikes.HL.Mat p → (Fin p → ℝ) × CMBlikes.HL.Mat p) (eigvalsh : CMBlikes.HL.Mat p → (Fin p → ℝ)) (he : CMBlikes.HL.EighSpec eigh)
    (hv : EigvalsSpec eigvalsh) (chains : List (Chain m)) (hw : Weighted chains) (W : ℝ) (hW : ∀ c ∈ chains, GelmanRubin.norm c = W) (D : Fin p → ℝ)
    (hr : eigenvalues h eigh eigvalsh chains = .ok (some D)) :
    ∃ R, worst (some D) = some R ∧ ∀ j : Fin p, ∀ r, meanVar chains (Fin.castLE h j) = some r → r ^ 2 ≤ R := by
  obtain ⟨R, hR, _, hle, _⟩ := gr_worst h hp eigh eigvalsh he hv chains D hr
  refine ⟨R, hR, fun j r hj => ?_⟩
  have hl : 2 ≤ chains.length := by
    by_contra hc
    unfold eigenvalues at hr
    rw [if_pos (by omega)] at hr
    cases hr
  have hne : chains ≠ [] := by rintro rfl; simp at hl
  obtain ⟨-, h0, hs⟩ := (meanVar_spec chains _ hw hl r).mp hj
  have hcomb : comb h (Pi.single j 1) = proj (Fin.castLE h j) := by
    funext x
    unfold comb proj
    rw [Finset.sum_eq_single j]
    · simp
    · intro i _ hi; simp [Pi.single_eq_of_ne hi]
    · simp
  have hin : inVar chains (Fin.castLE h j) = within (proj (Fin.castLE h j)) (proj (Fin.castLE h j)) chains := by
    rw [in_eq _ _ hw]
    have h1 : (chains.map GelmanRubin.norm).sum = chains.length * W := by
      rw [List.map_congr_left hW]; simp
    have h2 : (chains.map (fun c => GelmanRubin.norm c * wcov (proj (Fin.castLE h j)) (proj (Fin.castLE h j)) c)).sum = W * (chains.map (wcov (proj (Fin.castLE h j)) (proj (Fin.castLE h j)))).sum := by
      rw [← GelmanRubin.sum_map_mul]
      congr 1
      apply List.map_congr_left
      intro c hc; rw [hW c hc]
    have hW0 : W ≠ 0 := by
      obtain ⟨c, hc⟩ := List.exists_mem_of_ne_nil _ hne
      rw [← hW c hc]; exact (hw c hc).2.ne'
    have hlen : (chains.length : ℝ) ≠ 0 := by
      have : 0 < chains.length := by omega
      exact_mod_cast this.ne'
    unfold within
    rw [h1, h2]
    field_simp
  have := hle (Pi.single j 1)
  rw [hcomb, ← hin] at this
  rw [← in_eq chains _ hw] at hs
  rw [← hs] at this
  exact le_of_mul_le_mul_right this (lt_of_le_of_ne (in_nonneg chains _ hw hne) (Ne.symm h0))

/-- two chains of two rows, with means one and two and variances one -/
example : meanVar [[((1 : ℝ), ![0]), (1, ![2])], [(1, ![1]), (1, ![3])]] (0 : Fin 1) = some (Real.sqrt (1 / 2)) := by
  have h1 : inVar [[((1 : ℝ), ![0]), (1, ![2])], [(1, ![1]), (1, ![3])]] (0 : Fin 1) = 1 := by
    norm_num [inVar, means, GelmanRubin.norm]
  have h2 : betweenVar [[((1 : ℝ), ![0]), (1, ![2])], [(1, ![1]), (1, ![3])]] (0 : Fin 1) = 1 / 2 := by
    norm_num [betweenVar, means, GelmanRubin.norm]
  unfold meanVar
  rw [if_neg (by rw [h1]; norm_num), h1, h2, div_one]

end meanvar

section steps
variable {K : Type} [Field K] [LinearOrder K] [IsStrictOrderedRing K]

/-- the mean of products of entries `k` apart in units of `var` -/
def lagMean (var : K) (d : List K) (k : Nat) : K :=
  ((List.range (d.length - k)).map (fun i => d.getD i 0 * d.getD (i + k) 0)).sum / ((d.length : K) - k) / var

theorem stepTerm_eq (var : K) (d : List K) (k : Nat) (hk : k ≤ d.length) : stepTerm var d k = lagMean var d k := by
  unfold stepTerm lagMean
  congr 3
  apply List.ext_getElem
  · simp
  · intro i h1 h2
    simp at h1 h2
    have : i + k < d.length := by omega
    simp [List.getD_eq_getElem?_getD, show i < d.length by omega, this, add_comm k i, mul_comm]

/-- largest distance: what is asked for, and not beyond the rows -/
def lastStep (thin : Nat) (ds : List (List K)) (m : Nat) : Nat := ds.foldl (fun m d => min m (d.length / thin)) m

theorem addSteps_get (var : K) (d : List K) (m : Nat) (acc : List K) (k : Nat) :
    (addSteps var d m acc)[k]? = acc[k]?.map (fun a => if k < m then a + stepTerm var d (k + 1) else a) := by
  unfold addSteps
  rw [List.getElem?_map, List.getElem?_zipIdx]
  cases acc[k]? <;> simp

theorem lastStep_le (thin : Nat) (ds : List (List K)) (m : Nat) : lastStep thin ds m ≤ m := by
  induction ds generalizing m with
  | nil => exact le_rfl
  | cons d ds ih => exact (ih _).trans (min_le_left _ _)

theorem stepLoop_spec (var : K) (thin : Nat) (ds : List (List K)) (m : Nat) (acc : List K) :
    (stepLoop var thin ds m acc).1 = lastStep thin ds m ∧ (stepLoop var thin ds m acc).2.length = acc.length ∧
    ∀ k < lastStep thin ds m, (stepLoop var thin ds m acc).2[k]? = acc[k]?.map (fun a => a + (ds.map (fun d => stepTerm var d (k + 1))).sum) := by
  induction ds generalizing m acc with
  | nil => simp [stepLoop, lastStep]
  | cons d ds ih =>
    obtain ⟨h1, h2, h3⟩ := ih (min m (d.length / thin)) (addSteps var d (min m (d.length / thin)) acc)
    refine ⟨h1, ?_, ?_⟩
    · rw [show (stepLoop var thin (d :: ds) m acc).2 = (stepLoop var thin ds (min m (d.length / thin)) (addSteps var d (min m (d.length / thin)) acc)).2 from rfl, h2]
      simp [addSteps]
    · intro k hk
      have hk' : k < lastStep thin ds (min m (d.length / thin)) := hk
      refine (h3 k hk').trans ?_
      rw [addSteps_get]
      simp only [if_pos (lt_of_lt_of_le hk' (lastStep_le _ _ _))]
      cases acc[k]? with
      | none => rfl
      | some a => simp [add_assoc]

theorem le_lastStep (thin : Nat) (ds : List (List K)) (m k : Nat) : k ≤ lastStep thin ds m ↔ k ≤ m ∧ ∀ d ∈ ds, k ≤ d.length / thin := by
  induction ds generalizing m with
  | nil => simp [lastStep]
  | cons d ds ih =>
    show k ≤ lastStep thin ds (min m (d.length / thin)) ↔ _
    rw [ih, le_min_iff]
    simp [and_assoc]

/-- **C140** What is printed for a parameter: at each distance the mean over the chains of the mean product of thinned differences from the chain mean; and
distance `n` is shown exactly if it is at most the number asked for, the thinned rows of all chains hold it twice per chain, and the thinned rows of every chain
hold it `thin` times. -/
theorem corrSteps_spec (var : K) (thin steps total : Nat) (ds : List (List K)) :
    (corrSteps var thin steps total ds) = (List.range (lastStep thin ds (min steps (total / (2 * ds.length))))).map
      (fun k => (ds.map (fun d => lagMean var d (k + 1))).sum / ds.length) ∧
    ∀ n, n ≤ (corrSteps var thin steps total ds).length ↔ n ≤ steps ∧ n ≤ total / (2 * ds.length) ∧ ∀ d ∈ ds, n ≤ d.length / thin := by
  have hmain : (corrSteps var thin steps total ds) = (List.range (lastStep thin ds (min steps (total / (2 * ds.length))))).map
      (fun k => (ds.map (fun d => lagMean var d (k + 1))).sum / ds.length) := by
    unfold corrSteps
    simp only
    obtain ⟨h1, h2, h3⟩ := stepLoop_spec var thin ds (min steps (total / (2 * ds.length))) (List.replicate (min steps (total / (2 * ds.length))) 0)
    have hle := lastStep_le thin ds (min steps (total / (2 * ds.length)))
    rw [h1]
    apply List.ext_getElem?
    intro k
    rw [List.getElem?_map, List.getElem?_map, List.getElem?_take]
    by_cases hk : k < lastStep thin ds (min steps (total / (2 * ds.length)))
    · rw [if_pos hk, h3 k hk, List.getElem?_replicate, if_pos (by omega), List.getElem?_range hk]
      simp only [Option.map_some, zero_add, Option.some.injEq]
      congr 2
      apply List.map_congr_left
      intro d hd
      apply stepTerm_eq
      have := ((le_lastStep thin ds _ (k + 1)).mp hk).2 d hd
      exact this.trans (Nat.div_le_self _ _)
    · rw [if_neg hk, List.getElem?_eq_none (by simp; omega)]
      rfl
  refine ⟨hmain, fun n => ?_⟩
  rw [hmain, List.length_map, List.length_range, le_lastStep, le_min_iff, and_assoc]

/-- two chains, thinned by three -/
example : corrSteps (2 : ℚ) 3 15 14 [[1, -1, 1, -1, 1, -1, 1], [2, 2, 2, -2, -2, -2, 2]] = [1/12, 1/20] := by decide +kernel

/-- **C140** The distance between steps is a whole number of at least five, if not chosen by hand: twenty if no correlation length is known, five for short
correlation lengths, otherwise the sixth part of the correlation length. -/
theorem stepThin_spec [FloorRing K] (h : K) : 5 ≤ stepThin 0 h ∧ (30 < h → (stepThin 0 h : K) ≤ h / 6 ∧ h / 6 < (stepThin 0 h : K) + 1) ∧
    (h = 0 → stepThin 0 h = 20) ∧ (h ≠ 0 → h ≤ 30 → stepThin 0 h = 5) := by
  have tr : 30 < h → stepThin 0 h = ⌊h / 6⌋ := by
    intro h30
    unfold stepThin
    rw [if_neg (by simp), if_neg (by linarith), if_neg (by linarith)]
    have e : 5 * (h / 30) = h / 6 := by ring
    rw [e]
    unfold Thin.trunc
    rw [if_pos (by linarith)]
  refine ⟨?_, fun h30 => by rw [tr h30]; exact ⟨Int.floor_le _, Int.lt_floor_add_one _⟩,
    fun h0 => by unfold stepThin; rw [if_neg (by simp), if_pos h0],
    fun h0 h3 => by unfold stepThin; rw [if_neg (by simp), if_neg h0, if_pos h3]⟩
  by_cases h30 : 30 < h
  · rw [tr h30, Int.le_floor]; push_cast; linarith
  · unfold stepThin
    rw [if_neg (by simp)]
    split
    · omega
    · rw [if_pos (not_lt.mp h30)]

example : stepThin 0 (100 : ℚ) = 16 ∧ stepThin 0 (0 : ℚ) = 20 ∧ stepThin 0 (12 : ℚ) = 5 := by decide +kernel

theorem stepThin_set [FloorRing K] (t : Int) (h : K) (ht : t ≠ 0) : stepThin t h = t := by unfold stepThin; rw [if_pos ht]

example : stepThin 3 (100 : ℚ) = 3 := by decide +kernel

/-- **C141** The rows are counted as if they had not been thinned yet: at the distance of twenty, two chains of three hundred and eighty steps, nineteen rows after
thinning, get none of the correlations, though nine are allowed for by the length of all chains together. -/
theorem steps_twice_fails (var : K) (d : List K) (hd : d.length = 19) : corrSteps var 20 15 38 [d, d] = [] := by
  have h := (corrSteps_spec var 20 15 38 [d, d]).2 1
  have h0 : ¬ (1 ≤ (corrSteps var 20 15 38 [d, d]).length) := by
    rw [h]
    intro hc
    have := hc.2.2 d (by simp)
    rw [hd] at this
    omega
  exact List.length_eq_zero_iff.mp (by omega)

end steps
end Verif.Converge
