import Verif.Model.Convolve
import Verif.Model.Density
import Verif.Py.Float

/-!
# One-dimensional marginalised densities (`python/getdist/mcsamples.py`)

Binning, smoothing, correction at hard prior limits and multiplicative bias correction.  Exact arithmetic over an ordered field; `exp` is a
parameter.  `convolve1D` is a parameter `conv` (its model is `Model/Convolve.lean`, `Props/Kde1D.lean` shows that it fits); the
shared cache of transforms is left out (its correctness is C41).
Simplified: the automatic bandwidth is a parameter; mean likelihoods (`meanlikes`) are in `Model/MeanLikes`; results of convolutions are read by
position (all have `fine_bins` entries, shown in `Props`); `range_ND_contour` is not modelled.
-/

namespace Verif.Kde1D
set_option linter.unusedSectionVars false
open Verif.Py Verif.Py.Np Verif.Convolve

variable {K : Type} [Field K] [LinearOrder K] [FloorRing K]

/-! ## Ranges (mcsamples.py:1314-1370) -/

/-- mcsamples.py:1349-1354 and 1362-1363: the flag and the range at the lower end; `lim` is `limmin`, set whenever the flag is -/
def initBot (lim : Option K) (flag : Bool) (rmin pmin smooth : K) : Bool × K :=
  match lim, flag with
  | some l, true => if rmin - l > 2 * smooth ∧ pmin - l > smooth then (false, rmin - smooth * 2) else (true, l)
  | _, _ => (false, rmin - smooth * 2)

/-- mcsamples.py:1356-1360 and 1365-1366 -/
def initTop (lim : Option K) (flag : Bool) (rmax pmax smooth : K) : Bool × K :=
  match lim, flag with
  | some l, true => if l - rmax > 2 * smooth ∧ l - pmax > smooth then (false, rmax + smooth * 2) else (true, l)
  | _, _ => (false, rmax + smooth * 2)

/-- the attributes of a parameter used here -/
structure Par (K : Type) where
  limmin : Option K
  limmax : Option K
  bot : Bool
  top : Bool
  pmin : K
  pmax : K
  rmin : K
  rmax : K
  deriving DecidableEq

/-- `_initLimits` for one parameter (mcsamples.py:420-423), done by `updateBaseStatistics` -/
def initLimits (p : Par K) (lower upper : Option K) : Par K :=
  { p with limmin := lower, limmax := upper, bot := lower.isSome, top := upper.isSome }

/-- `_initParam` (mcsamples.py:1314-1370): smallest and largest sample, confidence limits of the samples, a tenth of the width of its structure
(`smooth`, 0.4 times `sigma_range`) -/
def initParam (p : Par K) (pmin pmax cmin cmax smooth : K) : Par K :=
  let b := initBot p.limmin p.bot cmin pmin smooth
  let t := initTop p.limmax p.top cmax pmax smooth
  { p with pmin := pmin, pmax := pmax, bot := b.1, rmin := b.2, top := t.1, rmax := t.2 }

/-- `getBounds` (mcsamples.py:2052-2068) for one parameter -/
def getBounds (p : Par K) : Option K × Option K :=
  (if p.bot then p.limmin else none, if p.top then p.limmax else none)

/-! ## Binning (mcsamples.py:1372-1385, kde_bandwidth.py:71-82) -/

/-- `astype(int)`: towards zero -/
def trunc (x : K) : Int := if 0 ≤ x then ⌊x⌋ else ⌈x⌉

def binmin (p : Par K) (borderfrac : K) : K :=
  if p.bot then min p.pmin p.rmin else min p.pmin p.rmin - (p.rmax - p.rmin) * borderfrac

def binmax (p : Par K) (borderfrac : K) : K :=
  if p.top then max p.pmax p.rmax else max p.pmax p.rmax + (p.rmax - p.rmin) * borderfrac

def fineWidth (p : Par K) (n : Nat) (borderfrac : K) : K := (binmax p borderfrac - binmin p borderfrac) / ((n : K) - 1)

/-- `_binSamples`: bin of each sample -/
def binSamples (v : List K) (p : Par K) (n : Nat) (borderfrac : K) : List Int :=
  v.map (fun x => trunc ((x - binmin p borderfrac) / fineWidth p n borderfrac + 1 / 2))

/-- `kde.bin_samples` (kde_bandwidth.py:71-82): indices and range -/
def kdeBin (v : List K) (rmin rmax : Option K) (nbins : Nat) (edge : K) : Except NErr (List Int × K) :=
  match max? v, min? v with
  | .ok mx, .ok mn =>
    let lo := rmin.getD (mn - (mx - mn) * edge)
    let hi := rmax.getD (mx + (mx - mn) * edge)
    .ok (v.map (fun x => trunc ((x - lo) / ((hi - lo) / ((nbins : K) - 1)))), hi - lo)
  | _, _ => .error .valueError

/-- `res[ix[i]] += weights[i]`; indices are not negative and in range -/
def addAll : List Int → List K → List K → List K
  | i :: ix, w :: ws, acc => addAll ix ws (acc.set i.toNat (acc.getD i.toNat 0 + w))
  | _, _, acc => acc

/-- `np.bincount(ix, weights=.., minlength=..)`: refuses negative indices and weights of another length -/
def bincount (ix : List Int) (ws : List K) (minlength : Nat) : Except NErr (List K) :=
  if ix.any (fun i => decide (i < 0)) then .error .valueError
  else if ix.length ≠ ws.length then .error .valueError
  else .ok (addAll ix ws (List.replicate (max minlength (ix.foldl (fun m i => max m (i.toNat + 1)) 0)) 0))

/-- `_make2Dhist` (mcsamples.py:1598-1602): the flat histogram; the reshape is refused when it is larger than the grid -/
def make2Dhist (ixs iys : List Int) (ws : List K) (xsize ysize : Nat) : Except NErr (List K) :=
  match bincount (List.zipWith (fun x y => x + y * (xsize : Int)) ixs iys) ws (xsize * ysize) with
  | .error e => .error e
  | .ok h => if h.length = xsize * ysize then .ok h else .error .valueError

/-! ## The kernel (mcsamples.py:109-115, 1446-1468) -/

/-- mcsamples.py:1446-1458: smoothing width in bins from the setting; `auto` is the automatic bandwidth -/
def smoothWidth (scale auto paramrange err width fine : K) : K :=
  if scale ≤ 0 then min auto (paramrange / 4) * |scale| / fine
  else if scale < 1 then scale * err / fine
  else scale * width / fine

/-- mcsamples.py:1463 -/
def clampSmooth (s : K) (n : Nat) : K := min (max 1 s) ((n / 2 : Nat) : K)

/-- mcsamples.py:1468 -/
def winwOf (s : K) (n : Nat) : Int := min (roundEven (5 / 2 * s)) ((n / 2 : Nat) - 2)

/-- `kernel.x` -/
def offs (w : Nat) : List K := (List.range (2 * w + 1)).map (fun o : Nat => (o : K) - (w : K))

/-- `kernel.Win` -/
def win (exp : K → K) (w : Nat) (h : K) : List K :=
  let g := (offs w).map (fun x : K => exp (-(x / h) ^ 2 / 2))
  g.map (· / g.sum)

/-- `kernel.Win * kernel.x ** k` -/
def xWin (W : List K) (w k : Nat) : List K := List.zipWith (fun g x => g * x ^ k) W (offs w)

/-! ## The mask of the prior (mcsamples.py:1483-1490, 1531-1536) -/

/-- `l[:w] = 0` -/
def zeroTo (l : List K) (w : Nat) : List K := List.replicate (min w l.length) 0 ++ l.drop w

/-- `l[-w:] = 0`; for `w = 0` this is the whole array -/
def zeroLast (l : List K) (w : Nat) : List K :=
  if w = 0 then List.replicate l.length 0 else l.take (l.length - w) ++ List.replicate (min w l.length) 0

def priorMask (bot top : Bool) (n w : Nat) : List K :=
  let m := List.replicate (n + 2 * w) 1
  let m := if bot then zeroTo (m.set w (1 / 2)) w else m
  if top then zeroLast (m.set (m.length - (w + 1)) (1 / 2)) w else m

def edgeMask (bot top : Bool) (n : Nat) : List K :=
  let m := List.replicate n 1
  let m := if bot then m.set 0 (ent m 0 * (1 / 2)) else m
  if top then m.set (n - 1) (ent m (n - 1) * (1 / 2)) else m

/-! ## Correction at the limits (mcsamples.py:1482-1528) -/

/-- mcsamples.py:1506 -/
def corrected1 (P xP a0 a1 a2 : K) : K := (P * a2 - xP * a1) / (a0 * a2 - a1 ^ 2)

/-- mcsamples.py:1509-1516 -/
def corrected2 (P xP x2P a0 a1 a2 a3 a4 : K) : K :=
  let denom := a4 * a2 * a0 - a4 * a1 ^ 2 - a2 ^ 3 - a3 ^ 2 * a0 + 2 * a1 * a2 * a3
  let A := a4 * a2 - a3 ^ 2
  let B := a2 * a3 - a4 * a1
  let C := a3 * a1 - a2 ^ 2
  (P * A + xP * B + x2P * C) / denom

/-- mcsamples.py:1525: the kernel of higher order without limits -/
def correctedFree (P x2P a2 a4 : K) : K := (P * a4 - a2 * x2P) / (a4 - a2 ^ 2)

inductive KErr
  | np (e : NErr)
  | settingError
  | densities (e : Verif.Density.DErr)

/-- `normed * np.exp(np.minimum(corrected / normed, cap) - 1)` -/
def soften (exp : K → K) (cap normed corrected : K) : K := normed * exp (min (corrected / normed) cap - 1)

/-- a convolution, its errors passed on -/
abbrev Conv (K : Type) := List K → List K → Mode → Except NErr (List K)

def run (conv : Conv K) (x y : List K) (mode : Mode) : Except KErr (List K) :=
  match conv x y mode with
  | .ok r => .ok r
  | .error e => .error (.np e)

/-- mcsamples.py:1482-1518: correction at the limits of `P` for the orders 0, 1, 2; `ix` selects where `a0 * P` does not vanish -/
def boundaryCorrect (conv : Conv K) (exp : K → K) (order : Int) (bot top : Bool) (n w : Nat) (W bins P : List K) : Except KErr (List K) := do
  let mask := priorMask bot top n w
  let a0 ← run conv mask W .valid
  let upd (f : Nat → K) : List K := (List.range n).map (fun i => if ent a0 i * ent P i = 0 then ent P i else f i)
  if order = 0 then pure (upd (fun i => ent P i / ent a0 i))
  else if order ≤ 2 then do
    let a1 ← run conv mask (xWin W w 1) .valid
    let a2 ← run conv mask (xWin W w 2) .valid
    let xP ← run conv bins (xWin W w 1) .same
    if order = 1 then
      pure (upd (fun i => soften exp 4 (ent P i / ent a0 i) (corrected1 (ent P i) (ent xP i) (ent a0 i) (ent a1 i) (ent a2 i))))
    else do
      let a3 ← run conv mask (xWin W w 3) .valid
      let a4 ← run conv mask (xWin W w 4) .valid
      let x2P ← run conv bins (xWin W w 2) .same
      pure (upd (fun i => soften exp 4 (ent P i / ent a0 i)
        (corrected2 (ent P i) (ent xP i) (ent x2P i) (ent a0 i) (ent a1 i) (ent a2 i) (ent a3 i) (ent a4 i))))
  else .error .settingError

/-- mcsamples.py:1519-1528: the kernel of higher order without limits -/
def freeCorrect (conv : Conv K) (exp : K → K) (n w : Nat) (W bins P : List K) : Except KErr (List K) := do
  let x2P ← run conv bins (xWin W w 2) .same
  let a2 := (xWin W w 2).sum
  let a4 := (xWin W w 4).sum
  pure ((List.range n).map (fun i =>
    if 0 < ent P i then ent P i * exp (min (correctedFree (ent P i) (ent x2P i) a2 a4 / ent P i) 2 - 1) else ent P i))

/-- one round of mcsamples.py:1538-1546 -/
def biasStep (conv : Conv K) (n : Nat) (W bins a0 P : List K) : Except KErr (List K) := do
  let fine := (List.range n).map (fun i => ent bins i / (if ent P i = 0 then 1 else ent P i))
  let c ← run conv fine W .same
  pure ((List.range n).map (fun i => ent P i * ent c i / ent a0 i))

def biasRounds (conv : Conv K) (n : Nat) (W bins a0 : List K) : Nat → List K → Except KErr (List K)
  | 0, P => .ok P
  | k + 1, P => match biasStep conv n W bins a0 P with
    | .error e => .error e
    | .ok P => biasRounds conv n W bins a0 k P

/-- mcsamples.py:1530-1546 -/
def biasCorrect (conv : Conv K) (rounds : Nat) (bot top : Bool) (n : Nat) (W bins P : List K) : Except KErr (List K) :=
  if rounds = 0 then .ok P
  else match run conv (edgeMask bot top n) W .same with
    | .error e => .error e
    | .ok a0 => biasRounds conv n W bins a0 rounds P

/-- mcsamples.py:1482-1528 -/
def edgeCorrect (conv : Conv K) (exp : K → K) (order : Int) (bot top : Bool) (n w : Nat) (W bins P : List K) : Except KErr (List K) :=
  if (bot || top) ∧ 0 ≤ order then boundaryCorrect conv exp order bot top n w W bins P
  else if order = 2 then freeCorrect conv exp n w W bins P
  else .ok P

/-- mcsamples.py:1471-1548: the density on the fine grid from the histogram `bins`, scaled to maximum one -/
def gridDensity (conv : Conv K) (exp : K → K) (order : Int) (rounds : Nat) (bot top : Bool) (n w : Nat) (h : K) (bins : List K) :
    Except KErr (List K) :=
  match run conv bins (win exp w h) .same with
  | .error e => .error e
  | .ok P0 => match edgeCorrect conv exp order bot top n w (win exp w h) bins P0 with
    | .error e => .error e
    | .ok P1 => match biasCorrect conv rounds bot top n (win exp w h) bins P1 with
      | .error e => .error e
      | .ok P => match Verif.Density.normalize (fun _ => 1) .max P with
        | .ok P => .ok P
        | .error e => .error (.densities e)

end Verif.Kde1D
