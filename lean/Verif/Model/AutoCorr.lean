import Verif.Model.Convolve

/-!
# Auto-correlations and effective numbers of samples (`python/getdist/chains.py`)

Exact arithmetic over an ordered field.  `pack` and `idct1` are the transforms used by `autoConvolve` (see `Model/Convolve.lean`), `ker` is the function
`exp(-x/4)`.  A division by zero, not-a-number in numpy, is zero here; the theorems exclude it.
-/

namespace Verif.AutoCorr
open Verif.Py (NErr)
open Verif.Convolve (autoConvolve)

variable {K : Type} [Field K] [LinearOrder K]

/-- what is used of `WeightedSamples`: weights, and the number of parameters `n` -/
structure WS (K : Type) where
  weights : List K
  n : Nat

def WS.numrows (s : WS K) : Nat := s.weights.length

/-- entry of an array -/
def at' (l : List K) (i : Nat) : K := l.getD i 0

/-- chains.py:641-654 `get_norm` -/
def norm (s : WS K) : K := s.weights.sum

/-- chains.py:656-668 `mean` -/
def mean (s : WS K) (x : List K) : K := (List.zipWith (· * ·) s.weights x).sum / norm s

/-- chains.py:732-749 `mean_diff` -/
def meanDiff (s : WS K) (x : List K) : List K := x.map (fun v => v - mean s x)

/-- chains.py:670-684 `var` -/
def var (s : WS K) (x : List K) : K := (List.zipWith (· * ·) ((meanDiff s x).map (· ^ 2)) s.weights).sum / norm s

/-- chains.py:420-442 `getAutocorrelation` -/
def autocorr (pack : List K → Nat → List K) (idct1 : List K → List K) (s : WS K) (x : List K) (maxOff : Option Nat) (weightUnits normalized : Bool) :
    Except NErr (List K) := do
  let maxOff := match maxOff with | some m => m | none => s.n - 1
  let d := List.zipWith (· * ·) (meanDiff s x) s.weights
  let corr ← autoConvolve pack idct1 d (some (maxOff + 1)) true
  let corr := if normalized then corr.map (· / var s x) else corr
  pure (if weightUnits then corr.map (fun c => c * (d.length : K) / norm s) else corr)

/-- `np.argmin` of an array of truth values: the first that is false, or 0 if none is -/
def argminBool (l : List Bool) : Nat := let i := l.findIdx (fun b => !b); if i < l.length then i else 0

/-- chains.py:464-466 -/
def lengthOf (minCorr : K) (corr : List K) : K :=
  let ix := argminBool (corr.map (fun c => decide (c > minCorr * at' corr 0)))
  at' corr 0 + 2 * ((corr.take ix).drop 1).sum

/-- chains.py:444-466 `getCorrelationLength` -/
def corrLength (pack : List K → Nat → List K) (idct1 : List K → List K) (s : WS K) (x : List K) (weightUnits : Bool) (minCorr : K) : Except NErr K := do
  let corr ← autocorr pack idct1 s x (some (s.numrows / 10)) weightUnits true
  pure (lengthOf minCorr corr)

/-- chains.py:468-475 `getEffectiveSamples` -/
def effective (pack : List K → Nat → List K) (idct1 : List K → List K) (s : WS K) (x : List K) (minCorr : K) : Except NErr K := do
  pure (norm s / (← corrLength pack idct1 s x true minCorr))

/-! ## For kernel density estimates -/

/-- chains.py:499-500: nested or uncorrelated samples -/
def effUncorrelated (s : WS K) : K := norm s ^ 2 / (List.zipWith (· * ·) s.weights s.weights).sum

/-- `np.dot(np.exp(-(d[:-k] - d[k:]) ** 2 / (4 * kernel_std ** 2)) * weights[:-k], weights[k:])`, for positive `k`; `kv` is `kernel_std ** 2` -/
def lagSum (ker : K → K) (w d : List K) (kv : K) (k : Nat) : K :=
  ((List.range (w.length - k)).map (fun i => ker ((at' d i - at' d (i + k)) ^ 2 / kv) * at' w i * at' w (i + k))).sum

/-- chains.py:510-518 -/
def uncorrTerm (lag : Nat → K) (rows : Nat) : K :=
  ((List.range 5).map (fun i => lag (rows / 2 + i))).sum / ((List.range 5).map (fun i => (rows : K) - ((rows / 2 + i : Nat) : K))).sum

/-- chains.py:533-535 `corr_k` -/
def corrK (lag : Nat → K) (rows : Nat) (k : Nat) : K := lag k - ((rows : K) - (k : K)) * uncorrTerm lag rows

/-- chains.py:547-551 the while loop; each turn divides by three, so `maxK` turns are enough -/
def shrink (corr : Nat → K) (threshold : K) : Nat → Nat → Nat
  | 0, maxK => maxK
  | fuel + 1, maxK =>
    if maxK > 10 then
      if corr (maxK / 3) ≥ threshold then maxK else shrink corr threshold fuel (maxK / 3)
    else maxK

/-- chains.py:553-557 -/
def stepSize (maxK : Nat) : Nat := if maxK < 20 then 1 else maxK / 10

/-- chains.py:559-567 the loop over `range(3, maxoff + 1, step)`, of which `k` is the next and at most `fuel` are left -/
def cumulate (corr : Nat → K) (threshold : K) (maxoff step : Nat) : Nat → Nat → K → K
  | 0, _, acc => acc
  | fuel + 1, k, acc =>
    if k > maxoff then acc
    else if corr k < threshold then acc
    else cumulate corr threshold maxoff step fuel (k + step) (acc + (if k > 3 then corr k * (step : K) else corr k * (step : K) / 2))

/-- chains.py:520-570: `N` from the correlations; `corr` has `maxoff + 1` entries -/
def sumCorr (c0 : K) (corr : Nat → K) (minCorr : K) (maxoff : Nat) : Except NErr K :=
  let threshold := minCorr * c0
  if maxoff < 1 then .error .indexError
  else if corr 1 < threshold then .ok c0
  else if maxoff < 2 then .error .indexError
  else if corr 2 > threshold then
    let maxK := shrink corr threshold maxoff maxoff
    .ok (c0 + 2 * cumulate corr threshold maxoff (stepSize maxK) maxoff 3 (corr 1 + corr 2))
  else .ok (c0 + 2 * corr 1)

/-- chains.py:504 `kernel_std ** 2` -/
def kernelVar (s : WS K) (d : List K) (h : K) (scale : Option K) : K :=
  (match scale with | some a => if a = 0 then var s d else a ^ 2 | none => var s d) * h ^ 2

/-- chains.py:502-572 `getEffectiveSamplesGaussianKDE` for chains, with the range of the kernel given; `scale` zero or absent means the standard
deviation -/
def effKDE (ker : K → K) (s : WS K) (d : List K) (h : K) (scale : Option K) (maxoff : Nat) (minCorr : K) : Except NErr K := do
  let maxoff := min maxoff (s.numrows / 10)
  let corr := corrK (lagSum ker s.weights d (kernelVar s d h scale)) s.numrows
  let N ← sumCorr (List.zipWith (· * ·) s.weights s.weights).sum corr minCorr maxoff
  pure (norm s ^ 2 / N)

/-- chains.py:507-508 the range if none is given, from the correlation length (not negative) -/
def kdeRange [FloorRing K] (length : K) : Nat := (⌊length * (3 / 2)⌋).toNat + 4

/-! ## Two dimensions -/

/-- chains.py:617-624 the loop of `getEffectiveSamplesGaussianKDE_2d`: the sum of the correlations up to the first below the threshold -/
def sum2D (corr : Nat → K) (threshold : K) (maxoff : Nat) : K := (((List.range maxoff).map (fun i => corr (i + 1))).takeWhile (fun c => !decide (c < threshold))).sum

/-- the quadratic form of the inverse covariance, divided by `h ** 2` -/
def form2D (cov : K × K × K) (h : K) (a b : K) : K :=
  (cov.2.2 * a ^ 2 - 2 * cov.2.1 * a * b + cov.1 * b ^ 2) / (cov.1 * cov.2.2 - cov.2.1 ^ 2) / h ^ 2

def lagSum2D (ker : K → K) (w d1 d2 : List K) (form : K → K → K) (k : Nat) : K :=
  ((List.range (w.length - k)).map (fun i => ker (form (at' d1 i - at' d1 (i + k)) (at' d2 i - at' d2 (i + k))) * at' w i * at' w (i + k))).sum

/-- chains.py:595-625 with the range given, for parameters that are not totally correlated; `cov` is the variance of the first, the covariance and the
variance of the second -/
def effKDE2D (ker : K → K) (s : WS K) (d1 d2 : List K) (cov : K × K × K) (h : K) (maxoff : Nat) (minCorr : K) : K :=
  let c0 := (List.zipWith (· * ·) s.weights s.weights).sum
  let corr := corrK (lagSum2D ker s.weights d1 d2 (form2D cov h)) s.numrows
  norm s ^ 2 / (c0 + 2 * sum2D corr (minCorr * c0) (min maxoff (s.numrows / 10)))

end Verif.AutoCorr
