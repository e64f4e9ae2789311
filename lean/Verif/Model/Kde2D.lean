import Verif.Model.Kde1D

/-!
# Two-dimensional marginalised densities (`python/getdist/mcsamples.py`)

Choice of bins and smoothing, the window, correction at hard prior limits and multiplicative bias correction.  Exact arithmetic over an ordered
field; `exp` and `sqrt` are parameters, `convolve2D` is a parameter `conv` (its model is in `Model/Convolve.lean`, `Props/Kde2D.lean` shows that
it fits), without the shared cache of transforms (C41).  Arrays are indexed y, x as in the code.
Simplified: the kernel optimizer inside `getAutoBandwidth2D` is not modelled (its decisions and its change of variables are); mean likelihoods
(`meanlikes`) are in `Model/MeanLikes.lean`; log messages are not modelled.
-/

namespace Verif.Kde2D
set_option linter.unusedSectionVars false
open Verif.Py Verif.Py.Np Verif.Convolve
open Verif.Kde1D (Par soften)

variable {K : Type} [Field K] [LinearOrder K] [FloorRing K]

inductive KErr2
  | np (e : NErr)
  | settingError
  | linAlgError
  | densitiesError
  deriving DecidableEq

/-! ## Bins and smoothing (mcsamples.py:1651-1709) -/

/-- mcsamples.py:1665-1669: the largest correlation is checked, small correlations are dropped -/
def useCorr (maxCorr corr : K) : Except KErr2 K :=
  if 1 < |maxCorr| then .error .settingError
  else .ok (if |corr| < 1 / 10 then 0 else corr)

/-- mcsamples.py:1672 -/
def angleScale (sqrt : K → K) (maxCorr corr : K) : K := max (1 / 5) (sqrt (1 - min maxCorr |corr| ^ 2))

/-- mcsamples.py:1674 -/
def nbin2D (numBins : Nat) (angle : K) : Int := roundEven ((numBins : K) / angle)

/-- mcsamples.py:1675-1679 -/
def fineBins (base : Nat) (corr angle : K) : Nat :=
  if corr ≠ 0 then
    let scaled := 192 * ⌊3 / angle⌋.toNat / 3
    if base < scaled ∧ 1 < ⌊1 / angle⌋ then scaled else base
  else base

/-- mcsamples.py:1694-1709: smoothing width of one parameter in bins; `auto` is the result of `getAutoBandwidth2D` -/
def smooth2 (scale auto err fine : K) (fineBins : Nat) (nbin : Int) : K :=
  if scale < 0 then auto * |scale| / fine
  else if scale < 1 then scale * err / fine
  else scale * (fineBins : K) / (nbin : K)

/-- mcsamples.py:1711-1717 -/
def winw2 (rx ry : K) : Nat := (roundEven (5 / 2 * max rx ry)).toNat

/-! ## Decisions of `getAutoBandwidth2D` (mcsamples.py:1229-1306) -/

inductive Band
  | sheared
  | fixed
  | optimized
  deriving DecidableEq, Repr

/-- mcsamples.py:1230, 1242, 1283 -/
def bandChoice (minCorr maxCorr corr : K) (limx limy : Bool) : Band :=
  let doCorrelated := !limx || !limy
  if minCorr < |corr| ∧ |corr| ≤ maxCorr ∧ doCorrelated = true then .sheared
  else if maxCorr < |corr| ∨ (doCorrelated = false ∧ 8 / 10 < corr) then .fixed
  else .optimized

/-- mcsamples.py:1240, 1284 -/
def clampCorr (maxCorr corr : K) : K := max (min corr maxCorr) (-maxCorr)

/-- the factor of a covariance `[[a, b], [b, d]]`: `np.linalg.cholesky` -/
def chol (sqrt : K → K) (a b d : K) : K × K × K := (sqrt a, b / sqrt a, sqrt (d - (b / sqrt a) ^ 2))

/-- mcsamples.py:1260-1265: the second variable, from the rows of the inverse of the factor -/
def shear (sqrt : K → K) (a b d x y : K) : K :=
  let S := chol sqrt a b d
  let i00 := 1 / S.1
  let i10 := -S.2.1 / (S.1 * S.2.2)
  let i11 := 1 / S.2.2
  i10 / i00 * x + i11 / i00 * y

/-- mcsamples.py:1262, 1275: the kernel of the sheared variables in the parameters: variances and covariance -/
def kernelBack (sqrt : K → K) (a b d hx hy c : K) : K × K × K :=
  let S := chol sqrt a b d
  let s00 := S.1 * (1 / S.1)
  let s10 := S.2.1 * (1 / S.1)
  let s11 := S.2.2 * (1 / S.1)
  let u00 := s00 * hx ^ 2
  let u01 := s00 * (hx * hy * c)
  let u10 := s10 * hx ^ 2 + s11 * (hx * hy * c)
  let u11 := s10 * (hx * hy * c) + s11 * hy ^ 2
  (u00 * s00, u10 * s10 + u11 * s11, u00 * s10 + u01 * s11)

/-! ## The window (mcsamples.py:1719-1722) -/

/-- the exponent: `ix1` is y, `ix2` is x -/
def quad (c00 c11 c10 y x : K) : K := -(y ^ 2 * c00 + x ^ 2 * c11 + 2 * c10 * y * x) / 2

/-- `np.linalg.inv` of the covariance of the kernel (y first) -/
def cinv (rx ry corr : K) : Except KErr2 (K × K × K) :=
  let det := ry ^ 2 * rx ^ 2 - (rx * ry * corr) * (rx * ry * corr)
  if det = 0 then .error .linAlgError
  else .ok (rx ^ 2 / det, ry ^ 2 / det, -(rx * ry * corr) / det)

/-- all entries, row by row -/
def cells (a : Arr K) : List K := (List.range a.h).flatMap (fun i => (List.range a.w).map (a.v i))

def off (w o : Nat) : K := (o : K) - (w : K)

def window (exp : K → K) (rx ry corr : K) (w : Nat) : Except KErr2 (Arr K) :=
  match cinv rx ry corr with
  | .error e => .error e
  | .ok (c00, c11, c10) =>
    let g : Arr K := ⟨2 * w + 1, 2 * w + 1, fun o p => exp (quad c00 c11 c10 (off w o) (off w p))⟩
    .ok ⟨2 * w + 1, 2 * w + 1, fun o p => g.v o p / (cells g).sum⟩

/-- `Win * indexes ** k * y ** l` -/
def xyWin (W : Arr K) (w k l : Nat) : Arr K := ⟨W.h, W.w, fun o p => W.v o p * off w p ^ k * off w o ^ l⟩

/-! ## The mask of the prior (mcsamples.py:1568-1585) -/

def ones (h w : Nat) : Arr K := ⟨h, w, fun _ _ => 1⟩

/-- `a[:, j] /= 2` -/
def halveCol (a : Arr K) (j : Nat) : Arr K := ⟨a.h, a.w, fun i k => if k = j then a.v i k / 2 else a.v i k⟩
/-- `a[j, :] /= 2` -/
def halveRow (a : Arr K) (j : Nat) : Arr K := ⟨a.h, a.w, fun i k => if i = j then a.v i k / 2 else a.v i k⟩
/-- `a[:, :w] = 0` -/
def zeroColsTo (a : Arr K) (w : Nat) : Arr K := ⟨a.h, a.w, fun i k => if k < w then 0 else a.v i k⟩
/-- `a[:w] = 0` -/
def zeroRowsTo (a : Arr K) (w : Nat) : Arr K := ⟨a.h, a.w, fun i k => if i < w then 0 else a.v i k⟩
/-- `a[:, -w:] = 0`; for `w = 0` these are all columns -/
def zeroColsLast (a : Arr K) (w : Nat) : Arr K := ⟨a.h, a.w, fun i k => if w = 0 ∨ a.w ≤ k + w then 0 else a.v i k⟩
/-- `a[-w:] = 0` -/
def zeroRowsLast (a : Arr K) (w : Nat) : Arr K := ⟨a.h, a.w, fun i k => if w = 0 ∨ a.h ≤ i + w then 0 else a.v i k⟩

/-- `_setEdgeMask2D` (mcsamples.py:1568-1585); limits of x, then of y -/
def edgeMask2 (xb xt yb yt : Bool) (a : Arr K) (w : Nat) (alledge : Bool) : Arr K :=
  let a := if xb then zeroColsTo (halveCol a w) w else a
  let a := if xt then zeroColsLast (halveCol a (a.w - (w + 1))) w else a
  let a := if yb then zeroRowsTo (halveRow a w) w else a
  let a := if yt then zeroRowsLast (halveRow a (a.h - (w + 1))) w else a
  if alledge then zeroRowsLast (zeroRowsTo (zeroColsLast (zeroColsTo a w) w) w) w else a

/-! ## Density on the grid (mcsamples.py:1728-1798) -/

abbrev Conv2 (K : Type) := Arr K → Arr K → Mode → Except NErr (Arr K)

def run2 (conv : Conv2 K) (x y : Arr K) (mode : Mode) : Except KErr2 (Arr K) :=
  match conv x y mode with
  | .ok r => .ok r
  | .error e => .error (.np e)

/-- `np.max` -/
def maxA (a : Arr K) : K := Density.maxOf (cells a)

/-- mcsamples.py:1771-1775 -/
def corrected (P xP yP a00 a10 a01 a20 a02 a11 : K) : K :=
  let denom := a20 * a01 ^ 2 + a10 ^ 2 * a02 - a00 * a02 * a20 + a11 ^ 2 * a00 - 2 * a01 * a10 * a11
  let A := a11 ^ 2 - a02 * a20
  let Ax := a10 * a02 - a01 * a11
  let Ay := a01 * a20 - a10 * a11
  (P * A + xP * Ax + yP * Ay) / denom

/-- the smallest relative value taken seriously, `1e-8` -/
def tiny : K := 1 / 10 ^ 8

/-- mcsamples.py:1745-1781 -/
def edgeCorrect2 (conv : Conv2 K) (exp : K → K) (order : Int) (xb xt yb yt : Bool) (w : Nat) (W hist P : Arr K) : Except KErr2 (Arr K) :=
  if (xb || xt || yb || yt) ∧ 0 ≤ order then do
    let mask := edgeMask2 xb xt yb yt (ones (hist.h + 2 * w) (hist.w + 2 * w)) w false
    let a00 ← run2 conv mask W .valid
    let upd (f : Nat → Nat → K) : Arr K := ⟨P.h, P.w, fun i j => if maxA P * tiny < a00.v i j * P.v i j then f i j else P.v i j⟩
    if order = 1 then do
      let a10 ← run2 conv mask (xyWin W w 1 0) .valid
      let a01 ← run2 conv mask (xyWin W w 0 1) .valid
      let a20 ← run2 conv mask (xyWin W w 2 0) .valid
      let a02 ← run2 conv mask (xyWin W w 0 2) .valid
      let a11 ← run2 conv mask (xyWin W w 1 1) .valid
      let xP ← run2 conv hist (xyWin W w 1 0) .same
      let yP ← run2 conv hist (xyWin W w 0 1) .same
      pure (upd (fun i j => soften exp 4 (P.v i j / a00.v i j)
        (corrected (P.v i j) (xP.v i j) (yP.v i j) (a00.v i j) (a10.v i j) (a01.v i j) (a20.v i j) (a02.v i j) (a11.v i j))))
    else if order = 0 then pure (upd (fun i j => P.v i j / a00.v i j))
    else .error .settingError
  else .ok P

/-- one round of mcsamples.py:1787-1792 -/
def biasStep2 (conv : Conv2 K) (W hist a00 P : Arr K) : Except KErr2 (Arr K) := do
  let box : Arr K := ⟨hist.h, hist.w, fun i j => if maxA P * tiny < P.v i j then hist.v i j / P.v i j else hist.v i j⟩
  let c ← run2 conv box W .same
  pure ⟨P.h, P.w, fun i j => P.v i j * c.v i j / a00.v i j⟩

def biasRounds2 (conv : Conv2 K) (W hist a00 : Arr K) : Nat → Arr K → Except KErr2 (Arr K)
  | 0, P => .ok P
  | k + 1, P => match biasStep2 conv W hist a00 P with
    | .error e => .error e
    | .ok P => biasRounds2 conv W hist a00 k P

/-- mcsamples.py:1783-1792 -/
def biasCorrect2 (conv : Conv2 K) (rounds : Nat) (xb xt yb yt : Bool) (w : Nat) (W hist P : Arr K) : Except KErr2 (Arr K) :=
  if rounds = 0 then .ok P
  else match run2 conv (edgeMask2 xb xt yb yt (ones (hist.h + 2 * w) (hist.w + 2 * w)) w true) W .valid with
    | .error e => .error e
    | .ok a00 => biasRounds2 conv W hist a00 rounds P

/-- mcsamples.py:1728-1792 from the histogram and the window -/
def raw2 (conv : Conv2 K) (exp : K → K) (order : Int) (rounds : Nat) (xb xt yb yt : Bool) (w : Nat) (W hist : Arr K) : Except KErr2 (Arr K) :=
  match run2 conv hist W .same with
  | .error e => .error e
  | .ok P0 => match edgeCorrect2 conv exp order xb xt yb yt w W hist P0 with
    | .error e => .error e
    | .ok P1 => biasCorrect2 conv rounds xb xt yb yt w W hist P1

/-- `density.normalize('max')` (densities.py:69-90) -/
def normMax (P : Arr K) : Except KErr2 (Arr K) :=
  if maxA P = 0 then .error .densitiesError else .ok ⟨P.h, P.w, fun i j => P.v i j / maxA P⟩

/-- mcsamples.py:1711-1798: the density on the fine grid from the histogram, for smoothing widths in bins -/
def gridDensity2 (conv : Conv2 K) (exp : K → K) (order : Int) (rounds : Nat) (xb xt yb yt : Bool) (rx ry corr : K) (hist : Arr K) :
    Except KErr2 (Arr K) :=
  match window exp rx ry corr (winw2 rx ry) with
  | .error e => .error e
  | .ok W => match raw2 conv exp order rounds xb xt yb yt (winw2 rx ry) W hist with
    | .error e => .error e
    | .ok P => normMax P

end Verif.Kde2D
