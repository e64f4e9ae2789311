import Verif.Props.OddMoments
import Mathlib.Analysis.SpecialFunctions.Pow.Real

/-!
# Further properties that pin definitions down (C271)
-/

namespace Verif.OddMoments
open Real

noncomputable section

/-- **C271**: the constants of the odd kernels: one, then `1 / (4 √π)`, then each is the one before times an odd number over two. -/
theorem kodd_spec : kodd 0 = 1 ∧ kodd 1 = 1 / (4 * √π) ∧ ∀ j, 1 ≤ j → kodd (j + 1) = kodd j * (2 * j + 1) / 2 := by
  refine ⟨by unfold kodd; simp, ?_, fun j hj => ?_⟩
  · unfold kodd
    rw [if_neg (by norm_num), Finset.prod_range_one]
    norm_num
    ring
  · unfold kodd
    rw [if_neg (by omega), if_neg (by omega), Finset.prod_range_succ, pow_succ 2 (j + 1)]
    ring

example : kodd 2 = 3 / (8 * √π) := by rw [kodd_spec.2.2 1 (by norm_num), kodd_spec.2.1]; norm_num; ring

/-- **C271**: the time of an odd moment solves its equation: its power times the squares of the number of samples and of the sum of the moments above
is the constant of the order. -/
theorem oddTime_spec (p00 N : ℝ) (s0 s1 : ℕ) (u : ℝ) (hp : 0 ≤ p00) (hN : N ≠ 0) (hu : u ≠ 0) :
    0 ≤ oddTime p00 N s0 s1 u ∧
    oddTime p00 N s0 s1 u ^ (3 + (s0 + s1)) * N ^ 2 * u ^ 2 = 8 / 3 * (1 - 1 / 2 ^ (s0 + s1 + 1)) * p00 * kodd s0 * kodd s1 := by
  have hk : ∀ j, 0 ≤ kodd j := by
    intro j
    unfold kodd
    split
    · norm_num
    · positivity
  have h2 : (1 : ℝ) / 2 ^ (s0 + s1 + 1) ≤ 1 := by
    rw [div_le_one (by positivity)]
    exact one_le_pow₀ (by norm_num)
  have hb : 0 ≤ 8 * (1 - 1 / 2 ^ (s0 + s1 + 1)) / 3 * p00 * kodd s0 * kodd s1 / N ^ 2 / u ^ 2 := by
    have h3 : (0 : ℝ) ≤ 1 - 1 / 2 ^ (s0 + s1 + 1) := by linarith
    have := hk s0
    have := hk s1
    positivity
  refine ⟨Real.rpow_nonneg hb _, ?_⟩
  unfold oddTime
  rw [← Real.rpow_natCast, ← Real.rpow_mul hb]
  have he : 1 / (3 + ((s0 + s1 : ℕ) : ℝ)) * ((3 + (s0 + s1) : ℕ) : ℝ) = 1 := by
    push_cast
    have : (3 + ((s0 : ℝ) + s1)) ≠ 0 := by positivity
    field_simp
  rw [he, Real.rpow_one]
  field_simp

example : oddTime 0 2 1 3 1 ^ 7 * 2 ^ 2 * 1 ^ 2 = 0 := by
  have := (oddTime_spec 0 2 1 3 1 le_rfl (by norm_num) (by norm_num)).2
  rw [show (3 + (1 + 3)) = 7 from rfl] at this
  rw [this]; ring

/-- **C271**: the powers are those of the normalised data: they are one at frequency zero, never more for data that are not negative, and do not
change when all data are multiplied by a number. -/
theorem power_spec (n : ℕ) (d : ℕ → ℕ → ℝ) : (total n d ≠ 0 → power n d 0 0 = 1) ∧
    (∀ c j k, c ≠ 0 → power n (fun y x => c * d y x) j k = power n d j k) ∧
    ((∀ y x, 0 ≤ d y x) → ∀ j k, power n d j k ≤ 1) := by
  refine ⟨fun ht => ?_, fun c j k hc => ?_, fun hd j k => ?_⟩
  · have hf : fourier n d 0 0 = ((total n d : ℝ) : ℂ) := by
      unfold fourier total
      simp
    unfold power
    rw [hf, Complex.normSq_ofReal, ← sq, div_self (pow_ne_zero 2 ht)]
  · have hf : fourier n (fun y x => c * d y x) j k = (c : ℂ) * fourier n d j k := by
      unfold fourier
      rw [Finset.mul_sum]
      refine Finset.sum_congr rfl fun y _ => ?_
      rw [Finset.mul_sum]
      refine Finset.sum_congr rfl fun x _ => ?_
      push_cast
      ring
    have ht : total n (fun y x => c * d y x) = c * total n d := by
      unfold total
      rw [Finset.mul_sum]
      exact Finset.sum_congr rfl fun y _ => (Finset.mul_sum _ _ _).symm
    unfold power
    rw [hf, ht, Complex.normSq_mul, Complex.normSq_ofReal, mul_pow, ← sq, mul_div_mul_left _ _ (pow_ne_zero 2 hc)]
  · have hn : ‖fourier n d j k‖ ≤ total n d := by
      unfold fourier total
      refine (norm_sum_le _ _).trans (Finset.sum_le_sum fun y _ => (norm_sum_le _ _).trans (Finset.sum_le_sum fun x _ => ?_))
      have : (-(2 * π * Complex.I * (j * y + k * x) / n)) = ((-(2 * π * (j * y + k * x) / n) : ℝ) : ℂ) * Complex.I := by
        push_cast; ring
      rw [norm_mul, this, Complex.norm_exp_ofReal_mul_I, mul_one, Complex.norm_real, Real.norm_eq_abs, abs_of_nonneg (hd y x)]
    unfold power
    rw [Complex.normSq_eq_norm_sq]
    exact div_le_one_of_le₀ (pow_le_pow_left₀ (norm_nonneg _) hn 2) (sq_nonneg _)

example (j k : ℤ) : power 3 (fun _ _ => 5 * 1) j k = power 3 (fun _ _ => 1) j k := (power_spec 3 (fun _ _ => 1)).2.1 5 j k (by norm_num)

/-- **C271**: the frequencies are whole numbers that differ from the position by a multiple of the number of bins, between minus a half of it and
below a half. -/
theorem freq_spec {n m : ℕ} (hm : m < n) : (∃ a : ℤ, (m : ℤ) = freq n m + a * n) ∧ -(n : ℤ) ≤ 2 * freq n m ∧ 2 * freq n m < n := by
  refine ⟨freq_eq n m, ?_⟩
  unfold freq
  split_ifs <;> omega

example : freq 4 2 = -2 ∧ freq 5 2 = 2 := by decide

/-- **C271**: the weight of a frequency: Gaussian of width given by the time, times the power of the frequency. -/
theorem weight_spec (t : ℝ) (s : ℕ) (f : ℤ) : weight t s f = (f : ℝ) ^ s * exp (-(2 * π * f) ^ 2 * t) := by
  unfold weight
  rw [mul_comm]
  congr 2
  ring

example (s : ℕ) (f : ℤ) : weight 0 s f = (f : ℝ) ^ s := by rw [weight_spec]; simp

/-- **C271**: only frequency zero has no factor, so the moment of order zero counts it with weight one: data in one bin of one have moment one. -/
theorem psi_one (d : ℕ → ℕ → ℝ) (t : ℝ) (h : d 0 0 ≠ 0) : psiOdd 1 d 0 0 t = 1 := by
  have hf : freq 1 0 = 0 := by decide
  have ht : total 1 d ≠ 0 := by unfold total; simpa using h
  unfold psiOdd
  rw [Finset.sum_range_one, Finset.sum_range_one, hf, Nat.cast_zero, (power_spec 1 d).1 ht, weight_spec]
  simp

example : psiOdd 1 (fun _ _ => 2) 0 0 3 = 1 := psi_one _ _ (by norm_num)

end

end Verif.OddMoments
