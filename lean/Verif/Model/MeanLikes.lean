import Verif.Py.Str
import Mathlib.Algebra.BigOperators.Group.Finset.Basic
import Mathlib.Algebra.Order.Field.Basic
import Mathlib.Data.Finset.Lattice.Fold
import Mathlib.Data.Fintype.Basic

/-!
# Model of the mean likelihoods of marginalised densities (`python/getdist/mcsamples.py:1443-1448, 1552-1564, 1689-1692, 1730-1743, 1812-1816`)

With `meanlikes` the plots of densities can also show the mean likelihood of the samples at each value, normalised to maximum one.
Modelled: the weights of the fine bins, smoothing with and without correction of multiplicative bias, division by the density, the cut at small densities
(two dimensions), the variant with mean logarithms (one dimension), normalisation.

Simplified: the bins of the grid are any finite type `ι`; a convolution in `same` mode (`Model/Convolve`) is a matrix `M`; exact
arithmetic; a maximum of zero, by which the code divides with the result nan, is an error.
-/

namespace Verif.MeanLikes

inductive Err
  | nan
deriving DecidableEq

section
variable {ι K : Type} [Fintype ι] [Nonempty ι] [Field K] [LinearOrder K]

/-- `np.max` -/
def maxOf (f : ι → K) : K := Finset.univ.sup' Finset.univ_nonempty f

/-- `np.min` -/
def minOf (f : ι → K) : K := Finset.univ.inf' Finset.univ_nonempty f

/-- a convolution in `same` mode -/
def smooth (M : ι → ι → K) (f : ι → K) (i : ι) : K := Finset.univ.sum (fun j => M i j * f j)

/-- `np.bincount` with weights (mcsamples.py:1441, 1448, 1691): the weights of the samples in each bin -/
def bincount [DecidableEq ι] (l : List (ι × K)) (i : ι) : K := ((l.filter (fun p => p.1 = i)).map (·.2)).sum

/-- a sample: bin, weight, `loglikes` (minus the logarithm of the likelihood) -/
structure Smp (ι K : Type) where
  bin : ι
  weight : K
  loglike : K

/-- `bins` (mcsamples.py:1441, 1333) -/
def hist [DecidableEq ι] (s : List (Smp ι K)) : ι → K := bincount (s.map (fun x => (x.bin, x.weight)))

/-- `finebinlikes` (mcsamples.py:1447-1448, 1690-1692) -/
def fineLikes [DecidableEq ι] (exp : K → K) (meanLoglike : K) (s : List (Smp ι K)) : ι → K :=
  bincount (s.map (fun x => (x.bin, x.weight * exp (meanLoglike - x.loglike))))

/-- `finebinlikes` with `shade_likes_is_mean_loglikes` (mcsamples.py:1445) -/
def fineLogs [DecidableEq ι] (s : List (Smp ι K)) : ι → K := bincount (s.map (fun x => (x.bin, x.weight * x.loglike)))

/-- division by the maximum (mcsamples.py:1561, 1813) -/
def normed (f : ι → K) : Except Err (ι → K) := if maxOf f = 0 then .error .nan else .ok (fun i => f i / maxOf f)

/-! ## Two dimensions -/

/-- smoothing of the fine bins, with correction (mcsamples.py:1731-1737) -/
def smoothed2 (M : ι → ι → K) (rounds : Nat) (fine : ι → K) : ι → K :=
  if rounds = 0 then smooth M fine
  else fun i => smooth M (fun j => if 0 < smooth M fine j then fine j / smooth M fine j else fine j) i * (if 0 < smooth M fine i then smooth M fine i else 1)

/-- the smallest density taken seriously, relative to the maximum (mcsamples.py:1739) -/
def small : K := 1 / 10 ^ 4

/-- mcsamples.py:1730-1741: the mean likelihood before normalisation; `bins` is the density as smoothed, before corrections -/
def mean2 (M : ι → ι → K) (rounds : Nat) (bins fine : ι → K) (i : ι) : K :=
  if small * maxOf (smooth M bins) < smooth M bins i then smoothed2 M rounds fine i / smooth M bins i else 0

/-- `density.likes` (mcsamples.py:1812-1814) -/
def likes2 (M : ι → ι → K) (rounds : Nat) (bins fine : ι → K) : Except Err (ι → K) := normed (mean2 M rounds bins fine)

/-! ## One dimension -/

/-- mcsamples.py:1553-1556: `P` is the density after all corrections, `raw` the smoothed bins -/
def mean1 (M : ι → ι → K) (P raw fine : ι → K) (i : ι) : K :=
  smooth M (fun j => if 0 < P j then fine j / P j else fine j) i * (if 0 < P i then P i / raw i else 1)

/-- `density.likes` (mcsamples.py:1552-1562) -/
def likes1 (M : ι → ι → K) (P raw fine : ι → K) : Except Err (ι → K) := normed (mean1 M P raw fine)

/-- mcsamples.py:1558-1560: with mean logarithms -/
def shadeLogs (exp : K → K) (raw b : ι → K) (i : ι) : K :=
  if raw i = 0 then 0 else if b i - minOf b < 30 then exp (-(b i - minOf b)) else 0

/-- `density.likes` with `shade_likes_is_mean_loglikes` -/
def likesLog (exp : K → K) (M : ι → ι → K) (P raw fine : ι → K) : Except Err (ι → K) := normed (shadeLogs exp raw (mean1 M P raw fine))

end
end Verif.MeanLikes
