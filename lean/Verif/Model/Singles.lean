import Verif.Model.Confidence
import Verif.Py.Float
import Verif.Model.NumFmt

/-!
# Weight-one samples, thinned output, splits of the samples and pairs of parameters
(`python/getdist/chains.py`, `python/getdist/mcsamples.py`)

The numbers drawn by numpy's generator are a parameter `rand`, one for each row.  Exact arithmetic; a division by zero is zero here (infinite or
not-a-number in numpy), the theorems exclude it.  `exp` and `sqrt` are parameters.
-/

namespace Verif.Singles
open Verif.Py Verif.Py.Np

variable {K : Type} [Field K] [LinearOrder K]

/-- `np.nonzero(mask)[0]` -/
def nonzero (mask : List Bool) : List Nat := mask.zipIdx.filterMap (fun p => if p.1 then some p.2 else none)

/-- the thinning factor, chains.py:914-919; `thin or 1` replaces zero -/
def thinOf (weights : List K) (thin maxSamples : Option K) : Except NErr K :=
  match maxSamples with
  | none => .ok (match thin with | none => 1 | some t => if t = 0 then 1 else t)
  | some m =>
    match thin with
    | some _ => .error .weightedSampleError
    | none => do
      let mw ← max? weights
      pure (max 1 (weights.sum / mw / m))

/-- `rand <= weights / (max_weight * thin)`, chains.py:923 and mcsamples.py:542 -/
def keepMask (rand weights : List K) (mw t : K) : List Bool := List.zipWith (fun r w => decide (r ≤ w / (mw * t))) rand weights

/-- `random_single_samples_indices`, chains.py:903-923 -/
def randomSingle (rand weights : List K) (thin maxSamples : Option K) : Except NErr (List Nat) := do
  let t ← thinOf weights thin maxSamples
  let mw ← max? weights
  pure (nonzero (keepMask rand weights mw t))

/-- what `MCSamples` holds -/
structure MC (K : Type) where
  weights : List K
  loglikes : Option (List K)
  samples : List (List K)

/-- mcsamples.py:526-527; `norm` and `max_mult` are the sum and the maximum of the weights (chains.py:1299-1302) -/
def singleThin (s : MC K) (mm : K) (maxScatter : K) : Option K → K
  | some t => t
  | none => max 1 (s.weights.sum / mm / maxScatter)

/-- `makeSingleSamples` without a file name, mcsamples.py:526-529, 542 -/
def makeSingleArray (rand : List K) (s : MC K) (maxScatter : K) (thin : Option K) : Except NErr (List (List K)) := do
  let mm ← max? s.weights
  mask s.samples (keepMask rand s.weights mm (singleThin s mm maxScatter thin))

section text
variable [FloorRing K]

/-- `"%16.7E" % x` -/
def field (x : K) : Str := rjust 16 (fmtE 7 x)

/-- one line, mcsamples.py:535-539 -/
def rowText (ll : K) (row : List K) : Str := field (1 : K) ++ field ll ++ row.flatMap field ++ ['\n']

/-- the loop mcsamples.py:533-539 -/
def fileRows (mm t : K) : List K → List K → List K → List (List K) → Str
  | r :: rs, w :: ws, l :: ls, x :: xs => (if r ≤ w / mm / t then rowText l x else []) ++ fileRows mm t rs ws ls xs
  | _, _, _, _ => []

/-- `makeSingleSamples` with a file name, mcsamples.py:526-539: the text written.  Without likelihoods `self.loglikes[i]` is a `TypeError` as soon as one
row is selected. -/
def makeSingleFile (rand : List K) (s : MC K) (maxScatter : K) (thin : Option K) : Except NErr Str := do
  let mm ← max? s.weights
  let t := singleThin s mm maxScatter thin
  match s.loglikes with
  | some ll => pure (fileRows mm t rand s.weights ll s.samples)
  | none => if (keepMask rand s.weights mm t).any id then throw .typeError else pure []

/-- the weight of a cooled row, mcsamples.py:560-562 -/
def coolWeight (exp : K → K) (cool maxL l : K) : K := exp (-(l * cool - l) - maxL * (1 - cool))

/-- the text for one entry of `thin_ix` at position `i` of the list, mcsamples.py:558-570: the parameters are those of row `i`, and no line end is written -/
def thinRow (exp : K → K) (fmt6 : K → Str) (cool maxL : K) (ll : List K) (samples : List (List K)) (thin i : Nat) : Except NErr Str :=
  match ll[thin]?, samples[i]? with
  | some l, some x =>
    .ok (if cool ≠ 1 then field (coolWeight exp cool maxL l) ++ field (l * cool) ++ x.flatMap field
         else fmt6 1 ++ fmt6 l ++ x.flatMap field)
  | _, _ => .error .indexError

/-- `writeThinData`, mcsamples.py:544-572: the text of the file; `fmt6` is `"%f" % x` -/
def writeThin (exp : K → K) (fmt6 : K → Str) (cool : K) (ll : List K) (samples : List (List K)) (thinIx : List Nat) : Except NErr Str := do
  let maxL ← max? ll
  let rows ← thinIx.zipIdx.mapM (fun p => thinRow exp fmt6 cool maxL ll samples p.1 p.2)
  pure rows.flatten

end text

/-- `getFractionIndices`, mcsamples.py:603-614; `selfW` is `self.weights`, whose sum is `self.norm` -/
def fractionIndices (selfW weights : List K) (n : Nat) : List Nat :=
  (List.range n).map (fun (k : Nat) => searchsorted (cumsum weights) ((k : K) / (n : K) * selfW.sum)) ++ [selfW.length]

/-- one number of the split tests, mcsamples.py:932-944: the limit `p` of the parts given by the boundaries `frac` compared with that of all samples -/
def splitTest (sqrt : K → K) (argsort : List K → List Nat) (selfW vec : List K) (p sd : K) (n : Nat) : Except NErr K := do
  let all ← Confidence.confidence argsort selfW vec p false 0 none none
  let frac := fractionIndices selfW selfW n
  let parts ← (frac.zip frac.tail).mapM (fun f => Confidence.confidence argsort selfW vec p false f.1 (some f.2) none)
  pure (sqrt ((parts.map (fun q => (q - all) ^ 2)).sum / (n : K)) / sd)

/-- the pairs visited by the two loops mcsamples.py:2299-2300 -/
def pairs (n : Nat) : List (Nat × Nat) := (List.range n).flatMap (fun i => (List.range (n - (i + 1))).map (fun k => (i, i + 1 + k)))

/-- mcsamples.py:2301-2303 -/
def scan (c : Nat → Nat → K) (tryT : K) (st : K × (Nat × Nat)) (p : Nat × Nat) : K × (Nat × Nat) :=
  if st.1 < |c p.1 p.2| ∧ |c p.1 p.2| < tryT then (|c p.1 p.2|, p) else st

/-- the loop over plots mcsamples.py:2297-2307; `last` is the pair left from the previous round -/
def corrLoop (c : Nat → Nat → K) (n : Nat) : Nat → K → Nat × Nat → List (Nat × Nat)
  | 0, _, _ => []
  | m + 1, tryT, last =>
    let r := (pairs n).foldl (scan c tryT) (-100000, last)
    if r.1 = -100000 then [] else r.2 :: corrLoop c n m r.1 r.2

/-- `getCorrelatedVariable2DPlots`, mcsamples.py:2284-2309, as indices; `numNonDerived` replaces a missing or zero `nparam`.  `corr` is
`self.correlationMatrix`, which is `None` until `getCorrelationMatrix` is called (chains.py:320, 363-371): indexing `None` is a `TypeError`.  An index beyond
the matrix is not modelled. -/
def correlatedPairs (corr : Option (Nat → Nat → K)) (numNonDerived : Nat) (numPlots : Nat) (nparam : Option Nat) : Except NErr (List (Nat × Nat)) :=
  let n := match nparam with | none => numNonDerived | some 0 => numNonDerived | some k => k
  match corr with
  | some c => .ok (corrLoop c n numPlots 100000 (0, 0))
  | none => if numPlots = 0 ∨ pairs n = [] then .ok [] else .error .typeError

/-- `mult_max` and the number of outliers, mcsamples.py:494-495 -/
def outliers (weights : List K) : Nat :=
  let m := weights.sum / (min (weights.length / 2) 500 : Nat)
  weights.countP (fun w => decide (m < w))

/-- the last two numbers of `getNumSampleSummaryText` before rounding, mcsamples.py:824-826 -/
def equivSingles (weights : List K) : Except NErr K := do
  let mm ← max? weights
  pure (weights.sum / mm)

def effWeighted (weights : List K) : K := weights.sum ^ 2 / dot weights weights

end Verif.Singles
