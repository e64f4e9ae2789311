import Verif.Model.Bandwidth
import Mathlib.Analysis.SpecialFunctions.Complex.Circle
import Mathlib.Analysis.Complex.Trigonometric

/-!
# The odd moments of correlated bandwidths: python/getdist/kde_bandwidth.py:137, 152-153, 192-208

`psi_odd` and `func2d_odd`, which `Model/Bandwidth` takes as given numbers, over the reals, with the discrete Fourier transform written as its sum.
Simplified: a sum of moments that is zero (a division by zero, an infinite time) is not modelled; rounding is left out.
-/

namespace Verif.OddMoments
open Real

noncomputable section

/-- kde_bandwidth.py:137 `Kodd` -/
def kodd (j : ℕ) : ℝ := if j = 0 then 1 else (∏ i ∈ Finset.range j, (2 * (i : ℝ) + 1)) / 2 ^ (j + 1) / √π

/-- `np.fft.fft2` of the data (kde_bandwidth.py:152), `n` bins in each direction, at the frequencies `j` of y and `k` of x -/
def fourier (n : ℕ) (d : ℕ → ℕ → ℝ) (j k : ℤ) : ℂ :=
  ∑ y ∈ Finset.range n, ∑ x ∈ Finset.range n, (d y x : ℂ) * Complex.exp (-(2 * π * Complex.I * (j * y + k * x) / n))

/-- the sum of the data -/
def total (n : ℕ) (d : ℕ → ℕ → ℝ) : ℝ := ∑ y ∈ Finset.range n, ∑ x ∈ Finset.range n, d y x

/-- `aFFT` (kde_bandwidth.py:152-153): the squared modulus of the transform of the data divided by their sum -/
def power (n : ℕ) (d : ℕ → ℕ → ℝ) (j k : ℤ) : ℝ := Complex.normSq (fourier n d j k) / total n d ^ 2

/-- `np.fft.fftfreq(n, d=1. / n)` (kde_bandwidth.py:204) -/
def freq (n m : ℕ) : ℤ := if 2 * m < n then m else (m : ℤ) - n

/-- kde_bandwidth.py:205-207: `w * f ** s` -/
def weight (t : ℝ) (s : ℕ) (f : ℤ) : ℝ := exp (-(f : ℝ) ^ 2 * (4 * π ^ 2 * t)) * (f : ℝ) ^ s

/-- kde_bandwidth.py:203-208 `psi_odd([s0, s1], time)` -/
def psiOdd (n : ℕ) (d : ℕ → ℕ → ℝ) (s0 s1 : ℕ) (t : ℝ) : ℝ :=
  (∑ m ∈ Finset.range n, ∑ l ∈ Finset.range n, weight t s1 (freq n m) * power n d m l * weight t s0 (freq n l)) * (2 * π) ^ (s0 + s1)

/-- kde_bandwidth.py:196-198: the time of a moment from the sum of the next ones -/
def oddTime (p00 N : ℝ) (s0 s1 : ℕ) (sum : ℝ) : ℝ :=
  (8 * (1 - 1 / 2 ^ (s0 + s1 + 1)) / 3 * p00 * kodd s0 * kodd s1 / N ^ 2 / sum ^ 2) ^ (1 / (3 + ((s0 + s1 : ℕ) : ℝ)))

/-- kde_bandwidth.py:192-201 with the number of recursions left -/
def funcOdd (n : ℕ) (d : ℕ → ℕ → ℝ) (p00 N t : ℝ) : ℕ → ℕ → ℕ → ℝ
  | 0, s0, s1 => psiOdd n d s0 s1 t
  | k + 1, s0, s1 => psiOdd n d s0 s1 (oddTime p00 N s0 s1 (funcOdd n d p00 N t k (s0 + 2) s1 + funcOdd n d p00 N t k s0 (s1 + 2)))

/-- `func2d_odd([s0, s1], t)` (kde_bandwidth.py:192-201) -/
def oddMoment (n : ℕ) (d : ℕ → ℕ → ℝ) (p00 N t : ℝ) (s0 s1 : ℕ) : ℝ := funcOdd n d p00 N t ((10 - (s0 + s1)) / 2) s0 s1

end

end Verif.OddMoments
