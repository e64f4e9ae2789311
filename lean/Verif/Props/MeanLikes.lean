import Verif.Model.MeanLikes
import Mathlib.Algebra.Order.BigOperators.Group.Finset
import Mathlib.Algebra.BigOperators.Ring.Finset
import Mathlib.Data.Fintype.BigOperators
import Mathlib.Data.Fin.VecNotation
import Mathlib.Tactic.Ring
import Mathlib.Tactic.Linarith
import Mathlib.Tactic.FieldSimp
import Mathlib.Tactic.NormNum

/-!
# C225, C226: mean likelihoods of densities
-/

namespace Verif.MeanLikes
set_option linter.unusedSectionVars false

section
variable {ι K : Type} [Fintype ι] [Nonempty ι] [Field K] [LinearOrder K] [IsStrictOrderedRing K]

theorem le_maxOf (f : ι → K) (i : ι) : f i ≤ maxOf f := Finset.le_sup' f (Finset.mem_univ i)

theorem maxOf_mem (f : ι → K) : ∃ i, maxOf f = f i := by
  obtain ⟨i, _, h⟩ := Finset.exists_mem_eq_sup' Finset.univ_nonempty f
  exact ⟨i, h⟩

theorem maxOf_unique (f : ι → K) (i : ι) (h : ∀ j, f j ≤ f i) : maxOf f = f i :=
  le_antisymm (by obtain ⟨j, hj⟩ := maxOf_mem f; rw [hj]; exact h j) (le_maxOf f i)

theorem minOf_le (f : ι → K) (i : ι) : minOf f ≤ f i := Finset.inf'_le f (Finset.mem_univ i)

theorem minOf_mem (f : ι → K) : ∃ i, minOf f = f i := by
  obtain ⟨i, _, h⟩ := Finset.exists_mem_eq_inf' Finset.univ_nonempty f
  exact ⟨i, h⟩

/-! ## Normalisation -/

/-- **C225**: what is returned has maximum one and is proportional to the mean likelihood -/
theorem normed_spec (f g : ι → K) (h : normed f = .ok g) : (∃ i, g i = 1) ∧ (0 < maxOf f → ∀ i, g i ≤ 1) ∧ (∀ i, g i * maxOf f = f i) ∧
    ((∀ i, 0 ≤ f i) → ∀ i, 0 ≤ g i) := by
  unfold normed at h
  by_cases h0 : maxOf f = 0
  · rw [if_pos h0] at h; cases h
  · rw [if_neg h0] at h
    cases h
    refine ⟨?_, ?_, ?_, ?_⟩
    · obtain ⟨i, hi⟩ := maxOf_mem f
      exact ⟨i, by dsimp only; rw [hi]; rw [hi] at h0; exact div_self h0⟩
    · intro hp i
      exact (div_le_one hp).mpr (le_maxOf f i)
    · intro i
      exact div_mul_cancel₀ _ h0
    · intro hf i
      obtain ⟨j, hj⟩ := maxOf_mem f
      exact div_nonneg (hf i) (by rw [hj]; exact hf j)

/-- it does not depend on the scale -/
theorem normed_scale (c : K) (hc : 0 < c) (f : ι → K) : normed (fun i => c * f i) = normed f := by
  have hm : maxOf (fun i => c * f i) = c * maxOf f := by
    obtain ⟨i, hi⟩ := maxOf_mem f
    rw [hi]
    exact maxOf_unique (fun i => c * f i) i (fun j => mul_le_mul_of_nonneg_left (by rw [← hi]; exact le_maxOf f j) hc.le)
  unfold normed
  rw [hm]
  by_cases h0 : maxOf f = 0
  · rw [if_pos h0, if_pos (by rw [h0, mul_zero])]
  · rw [if_neg h0, if_neg (mul_ne_zero hc.ne' h0)]
    congr 1
    funext i
    exact mul_div_mul_left _ _ hc.ne'

/-! ## Smoothing -/

theorem smooth_mono (M : ι → ι → K) (hM : ∀ i j, 0 ≤ M i j) (f g : ι → K) (h : ∀ i, f i ≤ g i) (i : ι) : smooth M f i ≤ smooth M g i :=
  Finset.sum_le_sum (fun j _ => mul_le_mul_of_nonneg_left (h j) (hM i j))

theorem smooth_scale (M : ι → ι → K) (c : K) (f : ι → K) (i : ι) : smooth M (fun j => c * f j) i = c * smooth M f i := by
  unfold smooth
  rw [Finset.mul_sum]
  exact Finset.sum_congr rfl (fun j _ => by ring)

theorem smooth_nonneg (M : ι → ι → K) (hM : ∀ i j, 0 ≤ M i j) (f : ι → K) (h : ∀ i, 0 ≤ f i) (i : ι) : 0 ≤ smooth M f i :=
  Finset.sum_nonneg (fun j _ => mul_nonneg (hM i j) (h j))

/-- where the smoothed values vanish, so do the values under the window -/
theorem smooth_zero (M : ι → ι → K) (hM : ∀ i j, 0 ≤ M i j) (f : ι → K) (h : ∀ i, 0 ≤ f i) (i : ι) (h0 : smooth M f i = 0) (j : ι) (hj : 0 < M i j) : f j = 0 := by
  have := (Finset.sum_eq_zero_iff_of_nonneg (fun j _ => mul_nonneg (hM i j) (h j))).mp h0 j (Finset.mem_univ j)
  rcases mul_eq_zero.mp this with h' | h'
  · exact absurd h' hj.ne'
  · exact h'

/-! ## Fine bins -/

section Fine
variable [DecidableEq ι]

theorem bincount_cons (p : ι × K) (l : List (ι × K)) (i : ι) : bincount (p :: l) i = (if p.1 = i then p.2 else 0) + bincount l i := by
  unfold bincount
  by_cases h : p.1 = i
  · rw [List.filter_cons_of_pos (by simpa using h), if_pos h, List.map_cons, List.sum_cons]
  · rw [List.filter_cons_of_neg (by simpa using h), if_neg h, zero_add]

/-- **C225**: in every bin the mean likelihood of its samples is between the smallest and the largest -/
theorem fineLikes_between (exp : K → K) (m a b : K) : ∀ s : List (Smp ι K), (∀ x ∈ s, 0 ≤ x.weight ∧ a ≤ exp (m - x.loglike) ∧ exp (m - x.loglike) ≤ b) →
    ∀ i, a * hist s i ≤ fineLikes exp m s i ∧ fineLikes exp m s i ≤ b * hist s i
  | [], _, i => by simp [hist, fineLikes, bincount]
  | x :: s, h, i => by
    obtain ⟨h0, h1, h2⟩ := h x (List.mem_cons_self ..)
    obtain ⟨i1, i2⟩ := fineLikes_between exp m a b s (fun y hy => h y (List.mem_cons_of_mem _ hy)) i
    unfold hist fineLikes at *
    rw [List.map_cons, List.map_cons, bincount_cons, bincount_cons]
    dsimp only
    by_cases e : x.bin = i
    · rw [if_pos e, if_pos e]
      have e1 := mul_le_mul_of_nonneg_left h1 h0
      have e2 := mul_le_mul_of_nonneg_left h2 h0
      constructor <;> nlinarith
    · rw [if_neg e, if_neg e]
      constructor <;> linarith

example : fineLikes (fun x : ℚ => 1 + x) 1 [⟨0, 2, 1⟩, ⟨1, 5, 1⟩, ⟨(0 : Fin 2), 3, 0⟩] 0 = 2 * 1 + 3 * 2 ∧ hist [⟨0, 2, 1⟩, ⟨1, 5, 1⟩, ⟨(0 : Fin 2), (3 : ℚ), 0⟩] 0 = 5 := by decide +kernel

theorem hist_nonneg : ∀ s : List (Smp ι K), (∀ x ∈ s, 0 ≤ x.weight) → ∀ i, 0 ≤ hist s i
  | [], _, i => by simp [hist, bincount]
  | x :: s, h, i => by
    have := hist_nonneg s (fun y hy => h y (List.mem_cons_of_mem _ hy)) i
    unfold hist at *
    rw [List.map_cons, bincount_cons]
    dsimp only
    have h0 := h x (List.mem_cons_self ..)
    split <;> linarith

/-- **C225**: with another reference for the likelihoods all are multiplied by one factor -/
theorem fineLikes_shift (exp : K → K) (he : ∀ x y, exp (x + y) = exp x * exp y) (m c : K) : ∀ (s : List (Smp ι K)) (i : ι),
    fineLikes exp (m + c) s i = exp c * fineLikes exp m s i
  | [], i => by simp [fineLikes, bincount]
  | x :: s, i => by
    have ih := fineLikes_shift exp he m c s i
    unfold fineLikes at *
    rw [List.map_cons, List.map_cons, bincount_cons, bincount_cons, ih]
    dsimp only
    have : exp (m + c - x.loglike) = exp c * exp (m - x.loglike) := by rw [← he]; congr 1; ring
    rw [this]
    split <;> ring

end Fine

/-! ## Two dimensions -/

/-- **C225**: below 1e-4 of the highest density nothing is shown, and only there -/
theorem mean2_cut (M : ι → ι → K) (rounds : Nat) (bins fine : ι → K) (i : ι) :
    (smooth M bins i ≤ small * maxOf (smooth M bins) → mean2 M rounds bins fine i = 0) ∧
    (small * maxOf (smooth M bins) < smooth M bins i → 0 < smoothed2 M rounds fine i → 0 < smooth M bins i → 0 < mean2 M rounds bins fine i) := by
  unfold mean2
  constructor
  · intro h; rw [if_neg (not_lt.mpr h)]
  · intro h h1 h2; rw [if_pos h]; exact div_pos h1 h2

/-- **C225**: without correction of bias, where the density is not small the value is a mean of the likelihoods: between their bounds -/
theorem mean2_between (M : ι → ι → K) (hM : ∀ i j, 0 ≤ M i j) (bins fine : ι → K) (hb : ∀ i, 0 ≤ bins i) (a b : K) (h : ∀ i, a * bins i ≤ fine i ∧ fine i ≤ b * bins i) (i : ι)
    (hi : small * maxOf (smooth M bins) < smooth M bins i) : a ≤ mean2 M 0 bins fine i ∧ mean2 M 0 bins fine i ≤ b := by
  have hmax : 0 ≤ maxOf (smooth M bins) := le_trans (smooth_nonneg M hM bins hb i) (le_maxOf _ i)
  have hs : (0 : K) ≤ small := by unfold small; positivity
  have hp : 0 < smooth M bins i := lt_of_le_of_lt (mul_nonneg hs hmax) hi
  unfold mean2 smoothed2
  rw [if_pos hi, if_pos rfl]
  constructor
  · rw [le_div_iff₀ hp, ← smooth_scale]
    exact smooth_mono M hM _ _ (fun j => (h j).1) i
  · rw [div_le_iff₀ hp, ← smooth_scale]
    exact smooth_mono M hM _ _ (fun j => (h j).2) i

/-- the result for all samples whose likelihoods are within bounds -/
theorem samples2_between [DecidableEq ι] (exp : K → K) (M : ι → ι → K) (hM : ∀ i j, 0 ≤ M i j) (m a b : K) (s : List (Smp ι K))
    (hs : ∀ x ∈ s, 0 ≤ x.weight ∧ a ≤ exp (m - x.loglike) ∧ exp (m - x.loglike) ≤ b) (i : ι)
    (hi : small * maxOf (smooth M (hist s)) < smooth M (hist s) i) : a ≤ mean2 M 0 (hist s) (fineLikes exp m s) i ∧ mean2 M 0 (hist s) (fineLikes exp m s) i ≤ b :=
  mean2_between M hM _ _ (hist_nonneg s (fun x hx => (hs x hx).1)) a b (fineLikes_between exp m a b s hs) i hi

theorem smoothed2_nonneg (M : ι → ι → K) (hM : ∀ i j, 0 ≤ M i j) (rounds : Nat) (fine : ι → K) (hf : ∀ i, 0 ≤ fine i) (i : ι) : 0 ≤ smoothed2 M rounds fine i := by
  unfold smoothed2
  by_cases h : rounds = 0
  · rw [if_pos h]; exact smooth_nonneg M hM fine hf i
  · rw [if_neg h]
    refine mul_nonneg (smooth_nonneg M hM _ (fun j => ?_) i) ?_
    · split
      · rename_i hp; exact div_nonneg (hf j) hp.le
      · exact hf j
    · split
      · rename_i hp; exact hp.le
      · exact zero_le_one

/-- **C225**: the likelihoods of two-dimensional densities lie between zero and one, and one is reached -/
theorem likes2_range (M : ι → ι → K) (hM : ∀ i j, 0 ≤ M i j) (rounds : Nat) (bins fine : ι → K) (hb : ∀ i, 0 ≤ bins i) (hf : ∀ i, 0 ≤ fine i) (g : ι → K)
    (h : likes2 M rounds bins fine = .ok g) : (∃ i, g i = 1) ∧ ∀ i, 0 ≤ g i ∧ g i ≤ 1 := by
  have hnn : ∀ i, 0 ≤ mean2 M rounds bins fine i := by
    intro i
    unfold mean2
    split
    · exact div_nonneg (smoothed2_nonneg M hM rounds fine hf i) (smooth_nonneg M hM bins hb i)
    · exact le_refl 0
  have hne : maxOf (mean2 M rounds bins fine) ≠ 0 := by
    intro h0
    unfold likes2 normed at h
    rw [if_pos h0] at h; cases h
  have hpos : 0 < maxOf (mean2 M rounds bins fine) := by
    obtain ⟨j, hj⟩ := maxOf_mem (mean2 M rounds bins fine)
    exact lt_of_le_of_ne (by rw [hj]; exact hnn j) (Ne.symm hne)
  obtain ⟨a, b, _, d⟩ := normed_spec _ _ h
  exact ⟨a, fun i => ⟨d hnn i, b hpos i⟩⟩

/-- **C225**: it does not matter to which likelihood the others are compared -/
theorem likes2_shift (M : ι → ι → K) (hM : ∀ i j, 0 ≤ M i j) (hd : ∀ i, 0 < M i i) (rounds : Nat) (bins fine : ι → K) (hf : ∀ i, 0 ≤ fine i) (c : K) (hc : 0 < c) :
    likes2 M rounds bins (fun i => c * fine i) = likes2 M rounds bins fine := by
  have hs : ∀ i, smoothed2 M rounds (fun i => c * fine i) i = c * smoothed2 M rounds fine i := by
    intro i
    unfold smoothed2
    by_cases h : rounds = 0
    · rw [if_pos h, if_pos h, smooth_scale]
    · rw [if_neg h, if_neg h]
      dsimp only
      have hq : (fun j => if 0 < smooth M (fun i => c * fine i) j then c * fine j / smooth M (fun i => c * fine i) j else c * fine j) =
          fun j => if 0 < smooth M fine j then fine j / smooth M fine j else fine j := by
        funext j
        rw [smooth_scale]
        by_cases hp : 0 < smooth M fine j
        · rw [if_pos hp, if_pos (mul_pos hc hp), mul_div_mul_left _ _ hc.ne']
        · rw [if_neg hp, if_neg (fun h' => hp ((mul_pos_iff_of_pos_left hc).mp h'))]
          have h0 : smooth M fine j = 0 := le_antisymm (not_lt.mp hp) (smooth_nonneg M hM fine hf j)
          rw [smooth_zero M hM fine hf j h0 j (hd j), mul_zero]
      rw [hq, smooth_scale]
      by_cases hp : 0 < smooth M fine i
      · rw [if_pos hp, if_pos (mul_pos hc hp)]; ring
      · rw [if_neg hp, if_neg (fun h' => hp ((mul_pos_iff_of_pos_left hc).mp h'))]
        have h0 : smooth M fine i = 0 := le_antisymm (not_lt.mp hp) (smooth_nonneg M hM fine hf i)
        have : smooth M (fun j => if 0 < smooth M fine j then fine j / smooth M fine j else fine j) i = 0 := by
          unfold smooth
          refine Finset.sum_eq_zero (fun j _ => ?_)
          rcases (hM i j).lt_or_eq with hj | hj
          · have hz := smooth_zero M hM fine hf i h0 j hj
            simp only [hz, zero_div, ite_self, mul_zero]
          · rw [← hj, zero_mul]
        rw [this]; ring
  unfold likes2
  have : mean2 M rounds bins (fun i => c * fine i) = fun i => c * mean2 M rounds bins fine i := by
    funext i
    unfold mean2
    rw [hs]
    split
    · rw [mul_div_assoc]
    · rw [mul_zero]
  rw [this, normed_scale c hc]

/-! ## One dimension -/

/-- **C225**: in one dimension the values relative to those of a constant likelihood are between the bounds of the likelihoods -/
theorem mean1_between (M : ι → ι → K) (hM : ∀ i j, 0 ≤ M i j) (P raw bins fine : ι → K) (hr : ∀ i, 0 ≤ raw i) (a b : K) (h : ∀ i, a * bins i ≤ fine i ∧ fine i ≤ b * bins i) (i : ι) :
    a * mean1 M P raw bins i ≤ mean1 M P raw fine i ∧ mean1 M P raw fine i ≤ b * mean1 M P raw bins i := by
  have hq : ∀ (f g : ι → K) (c : K), (∀ j, c * f j ≤ g j) → ∀ j, c * (if 0 < P j then f j / P j else f j) ≤ if 0 < P j then g j / P j else g j := by
    intro f g c hfg j
    by_cases hp : 0 < P j
    · rw [if_pos hp, if_pos hp, ← mul_div_assoc]; exact div_le_div_of_nonneg_right (hfg j) hp.le
    · rw [if_neg hp, if_neg hp]; exact hfg j
  have hq2 : ∀ (f g : ι → K) (c : K), (∀ j, g j ≤ c * f j) → ∀ j, (if 0 < P j then g j / P j else g j) ≤ c * (if 0 < P j then f j / P j else f j) := by
    intro f g c hfg j
    by_cases hp : 0 < P j
    · rw [if_pos hp, if_pos hp, ← mul_div_assoc]; exact div_le_div_of_nonneg_right (hfg j) hp.le
    · rw [if_neg hp, if_neg hp]; exact hfg j
  have hfac : 0 ≤ if 0 < P i then P i / raw i else 1 := by
    split
    · rename_i hp; exact div_nonneg hp.le (hr i)
    · exact zero_le_one
  unfold mean1
  constructor
  · rw [← mul_assoc, ← smooth_scale]
    exact mul_le_mul_of_nonneg_right (smooth_mono M hM _ _ (hq bins fine a (fun j => (h j).1)) i) hfac
  · rw [← mul_assoc, ← smooth_scale]
    exact mul_le_mul_of_nonneg_right (smooth_mono M hM _ _ (hq2 bins fine b (fun j => (h j).2)) i) hfac

/-- **C225**: in one dimension too the reference does not matter -/
theorem likes1_shift (M : ι → ι → K) (P raw fine : ι → K) (c : K) (hc : 0 < c) : likes1 M P raw (fun i => c * fine i) = likes1 M P raw fine := by
  unfold likes1
  have : mean1 M P raw (fun i => c * fine i) = fun i => c * mean1 M P raw fine i := by
    funext i
    unfold mean1
    rw [← mul_assoc, ← smooth_scale]
    congr 2
    funext j
    split
    · rw [mul_div_assoc]
    · rfl
  rw [this, normed_scale c hc]

/-- **C225**: with mean logarithms the best bin of those with samples gets one if no bin is empty, the others the ratio of likelihoods -/
theorem likesLog_spec (exp : K → K) (he0 : exp 0 = 1) (hm : ∀ x ≤ 0, exp x ≤ 1) (M : ι → ι → K) (P raw fine : ι → K) (hr : ∀ i, raw i ≠ 0) :
    likesLog exp M P raw fine = .ok (fun i => if mean1 M P raw fine i - minOf (mean1 M P raw fine) < 30 then exp (-(mean1 M P raw fine i - minOf (mean1 M P raw fine))) else 0) := by
  have hf : shadeLogs exp raw (mean1 M P raw fine) = fun i => if mean1 M P raw fine i - minOf (mean1 M P raw fine) < 30 then exp (-(mean1 M P raw fine i - minOf (mean1 M P raw fine))) else 0 := by
    funext i
    unfold shadeLogs
    rw [if_neg (hr i)]
  have hmax : maxOf (shadeLogs exp raw (mean1 M P raw fine)) = 1 := by
    rw [hf]
    obtain ⟨i, hi⟩ := minOf_mem (mean1 M P raw fine)
    have e : (if mean1 M P raw fine i - minOf (mean1 M P raw fine) < 30 then exp (-(mean1 M P raw fine i - minOf (mean1 M P raw fine))) else 0) = 1 := by
      rw [← hi, sub_self, if_pos (by norm_num), neg_zero, he0]
    rw [maxOf_unique _ i, e]
    intro j
    rw [e]
    split
    · exact hm _ (neg_nonpos.mpr (sub_nonneg.mpr (minOf_le _ j)))
    · exact zero_le_one
  unfold likesLog normed
  rw [hmax, if_neg one_ne_zero, hf]
  congr 1
  funext i
  rw [div_one]

end

/-! ## Examples -/

/-- two bins, smoothed with weights 3 and 1 -/
def exM : Fin 2 → Fin 2 → ℚ := ![![3, 1], ![1, 3]]

example : (likes2 exM 0 ![1, 2] ![2, 1]).toOption.map (fun g => (g 0, g 1)) = some (1, 1 * (5 / 7) / (7 / 5)) := by decide +kernel

example : (likes2 exM 0 ![1, 2] ![5, 10]).toOption.map (fun g => (g 0, g 1)) = some (1, 1) := by decide +kernel

/-! ## What fails -/

/-- samples that all have the same likelihood have the same mean likelihood wherever it is shown -/
def Flat2 : Prop := ∀ (n : Nat) (M : Fin (n + 1) → Fin (n + 1) → ℚ) (rounds : Nat) (bins : Fin (n + 1) → ℚ) (g : Fin (n + 1) → ℚ), (∀ i j, 0 ≤ M i j) → (∀ i, 0 ≤ bins i) →
  likes2 M rounds bins bins = .ok g → ∀ i, small * maxOf (smooth M bins) < smooth M bins i → g i = 1

/-- **C226 fails**: with correction of bias (the default) the likelihoods are corrected but then divided by the density before its correction (mcsamples.py:1733-1740), so that
a constant likelihood is not shown as constant -/
theorem flat2_fails : ¬ Flat2 := by
  intro h
  have := h 1 exM 1 ![1, 2] (fun i => mean2 exM 1 ![1, 2] ![1, 2] i / maxOf (mean2 exM 1 ![1, 2] ![1, 2])) (by decide +kernel) (by decide +kernel) (by
    unfold likes2 normed
    rw [if_neg (by decide +kernel)]) 0 (by decide +kernel)
  revert this
  decide +kernel

/-- **C226**: without that correction it is -/
theorem flat2_partial {ι K : Type} [Fintype ι] [Nonempty ι] [Field K] [LinearOrder K] [IsStrictOrderedRing K] (M : ι → ι → K) (hM : ∀ i j, 0 ≤ M i j) (bins : ι → K) (hb : ∀ i, 0 ≤ bins i)
    (c : K) (hc : 0 < c) (g : ι → K) (h : likes2 M 0 bins (fun i => c * bins i) = .ok g) (i : ι) (hi : small * maxOf (smooth M bins) < smooth M bins i) : g i = 1 := by
  have hv : ∀ j, small * maxOf (smooth M bins) < smooth M bins j → mean2 M 0 bins (fun i => c * bins i) j = c := by
    intro j hj
    have := mean2_between M hM bins (fun i => c * bins i) hb c c (fun _ => ⟨le_refl _, le_refl _⟩) j hj
    exact le_antisymm this.2 this.1
  have hmax : maxOf (mean2 M 0 bins (fun i => c * bins i)) = c := by
    rw [maxOf_unique _ i, hv i hi]
    intro j
    rw [hv i hi]
    by_cases hj : small * maxOf (smooth M bins) < smooth M bins j
    · rw [hv j hj]
    · rw [(mean2_cut M 0 bins _ j).1 (not_lt.mp hj)]; exact hc.le
  have := (normed_spec _ _ h).2.2.1 i
  rw [hmax, hv i hi] at this
  exact mul_right_cancel₀ hc.ne' (by rw [this, one_mul])

/-- the same in one dimension, for densities without limits and without corrections -/
def Flat1 : Prop := ∀ (n : Nat) (M : Fin (n + 1) → Fin (n + 1) → ℚ) (bins : Fin (n + 1) → ℚ) (g : Fin (n + 1) → ℚ), (∀ i j, 0 < M i j) → (∀ i, 0 < bins i) →
  likes1 M (fun i => smooth M bins i / maxOf (smooth M bins)) (smooth M bins) bins = .ok g → ∀ i, g i = 1

/-- **C226 fails**: in one dimension the likelihoods are corrected for bias even if the density is not (mcsamples.py:1554-1556) -/
theorem flat1_fails : ¬ Flat1 := by
  intro h
  let P : Fin 2 → ℚ := fun i => smooth exM ![1, 2] i / maxOf (smooth exM ![1, 2])
  have := h 1 exM ![1, 2] (fun i => mean1 exM P (smooth exM ![1, 2]) ![1, 2] i / maxOf (mean1 exM P (smooth exM ![1, 2]) ![1, 2])) (by decide +kernel) (by decide +kernel) (by
    unfold likes1 normed
    rw [if_neg (by decide +kernel)]) 0
  revert this
  decide +kernel

/-- mean logarithms can be shown whenever there are samples -/
def LogsShown : Prop := ∀ (exp : ℚ → ℚ) (n : Nat) (M : Fin (n + 1) → Fin (n + 1) → ℚ) (s : List (Smp (Fin (n + 1)) ℚ)), (∀ x, 0 < exp x) → (∀ i j, 0 ≤ M i j) → (∀ i, 0 < M i i) →
  s ≠ [] → (∀ x ∈ s, 0 < x.weight) →
  ∃ g, likesLog exp M (fun i => smooth M (hist s) i / maxOf (smooth M (hist s))) (smooth M (hist s)) (fineLogs s) = .ok g

/-- one sample in the first of two bins, with -log(like) of 500 -/
def oneSample : List (Smp (Fin 2) ℚ) := [⟨0, 1, 500⟩]

/-- **C226 fails**: bins without samples, whose sum of logarithms is zero, take part in the minimum (mcsamples.py:1558); with usual values of -log(like), in the
hundreds, all bins with samples are then more than 30 away and set to zero, as are the empty ones, and the division by the maximum gives nan everywhere -/
theorem logs_fails : ¬ LogsShown := by
  intro h
  obtain ⟨g, hg⟩ := h (fun _ => 1) 1 ![![1, 0], ![0, 1]] oneSample (fun _ => one_pos) (by decide +kernel) (by decide +kernel) (by decide) (by
    intro x hx
    have : x = ⟨0, 1, 500⟩ := List.mem_singleton.mp hx
    rw [this]; exact one_pos)
  unfold likesLog normed at hg
  rw [if_pos (by decide +kernel)] at hg
  cases hg

/-- mean logarithms may be given relative to any reference -/
def LogsShift : Prop := ∀ (n : Nat) (M : Fin (n + 1) → Fin (n + 1) → ℚ) (s : List (Smp (Fin (n + 1)) ℚ)) (c : ℚ) (i : Fin (n + 1)), (∀ i j, 0 < M i j) → (∀ x ∈ s, 0 < x.weight) → (∀ i, 0 < hist s i) →
  let P := fun i => smooth M (hist s) i / maxOf (smooth M (hist s))
  let raw := smooth M (hist s)
  mean1 M P raw (fineLogs (s.map (fun x => ⟨x.bin, x.weight, x.loglike + c⟩))) i = mean1 M P raw (fineLogs s) i + c

/-- **C226 fails**: for the same reason as with likelihoods the constant is multiplied by a factor that differs from bin to bin; with
-log(like) in the hundreds this factor, not the likelihood, decides what is shown -/
theorem logs_shift_fails : ¬ LogsShift := by
  intro h
  have := h 1 exM [⟨0, 1, 0⟩, ⟨1, 2, 0⟩] 1 0 (by decide +kernel) (by
    intro x hx
    rcases List.mem_cons.mp hx with rfl | hx
    · exact one_pos
    · rw [List.mem_singleton.mp hx]; exact two_pos) (by decide +kernel)
  revert this
  decide +kernel

end Verif.MeanLikes
