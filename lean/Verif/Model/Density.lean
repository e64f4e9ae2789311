import Verif.Py.Np
import Mathlib.Algebra.Order.Archimedean.Basic

/-!
# Model of grid densities (`python/getdist/densities.py`)

Simplified: an array of `shape` is a function of the index list.  Splines are not modelled: the finely interpolated grid of
`initLimitGrids` is given.  A division by a vanishing norm (numpy gives `inf` or `nan`) is a division in the field.
-/

namespace Verif.Density
set_option linter.unusedSectionVars false
open Verif.Py Verif.Py.Np

variable {K : Type} [Field K] [LinearOrder K]

inductive DErr
  | densitiesError
  | indexError
  | typeError
  deriving DecidableEq, Repr

/-! ## Arrays -/

/-- `np.ndindex(shape)`: all index lists, the last index running fastest -/
def ndindex : List Nat → List (List Nat)
  | [] => [[]]
  | n :: ns => (List.range n).flatMap (fun i => (ndindex ns).map (i :: ·))

/-- `a.reshape(-1)` -/
def flat (shape : List Nat) (A : List Nat → K) : List K := (ndindex shape).map A

/-! ## Integrals -/

/-- `P[1:-1]` -/
def mid {α : Type} (l : List α) : List α := l.tail.dropLast

/-- `Density1D.integrate` (densities.py:178-179) -/
def integrate1 (spacing : K) (P : List K) : K := ((P.headD 0 + P.getLastD 0) / 2 + (mid P).sum) * spacing

/-- `Density2D.integrate` (densities.py:271-275); `P` is the list of rows -/
def integrate2 (spacing : K) (P : List (List K)) : K :=
  let r0 := P.headD []
  let rl := P.getLastD []
  (((mid P).map (fun r => (mid r).sum)).sum + (r0.headD 0 + r0.getLastD 0 + rl.headD 0 + rl.getLastD 0) / 4
    + (((mid P).map (fun r => r.headD 0)).sum + (mid r0).sum + ((mid P).map (fun r => r.getLastD 0)).sum + (mid rl).sum) / 2) * spacing

/-- `niszero + nismax` (densities.py:336-343) -/
def nBoundaries (shape ind : List Nat) : Nat :=
  ind.count 0 + (List.zipWith (fun (i n : Nat) => ((i : Int) - n + 1)) ind shape).count 0

/-- `multinorm[nboundaries] += P[ind]` for all indices (densities.py:334-346) -/
def accum (shape : List Nat) (P : List Nat → K) : List (List Nat) → List K → Except DErr (List K)
  | [], m => .ok m
  | ind :: rest, m =>
    let nb := nBoundaries shape ind
    match m[nb]? with
    | none => .error .indexError
    | some v => accum shape P rest (m.set nb (v + P ind))

/-- `DensityND.integrate` (densities.py:331-360).  `ndim = len(P)` is the size of the first axis; the grid spacing is not used. -/
def integrateN (shape : List Nat) (P : List Nat → K) : Except DErr K :=
  match shape with
  | [] => .error .typeError
  | n :: _ => match accum shape P (ndindex shape) (List.replicate (n + 1) 0) with
    | .error e => .error e
    | .ok m => .ok ((m.zipIdx.map (fun p => p.1 / 2 ^ p.2)).sum)

/-! ## Normalisation -/

inductive By
  | integral
  | max
  | other
  deriving DecidableEq, Repr

/-- `np.max` -/
def maxOf : List K → K
  | [] => 0
  | a :: l => l.foldl max a

/-- `GridDensity.normalize` (densities.py:69-90) on the flat array, for a given integral; the result is the new array -/
def normalize (integral : List K → K) (by_ : By) (P : List K) : Except DErr (List K) :=
  match by_ with
  | .integral => .ok (P.map (· / integral P))
  | .max => if maxOf P = 0 then .error .densitiesError else .ok (P.map (· / maxOf P))
  | .other => .error .densitiesError

/-! ## Contour levels -/

/-- one pass of the half-edge loop: axis `k` of size `n` (densities.py:35-37) -/
def halveAxis (n k : Nat) (A : List Nat → K) : List Nat → K := fun ind =>
  let a := if ind[k]? = some (n - 1) then A ind / 2 else A ind
  if ind[k]? = some 0 then a / 2 else a

/-- `abins` with `half_edge` (densities.py:31-39) -/
def halveEdges (A : List Nat → K) : Nat → List Nat → List Nat → K
  | _, [] => A
  | k, n :: ns => halveEdges (halveAxis n k A) (k + 1) ns

/-- the level for one target from the sorted masses (densities.py:47-55) -/
def levelAt (sortgrid : List K) (target : K) : Except DErr K :=
  let cs := cumsum sortgrid
  let ix := searchsorted cs target
  if ix = 0 then .error .densitiesError
  else match cs[ix]?, cs[ix - 1]?, sortgrid[ix]?, sortgrid[ix - 1]? with
    | some c1, some c0, some s1, some s0 =>
      let h := c1 - c0
      let d := (c1 - target) / h
      .ok (s1 * (1 - d) + d * s0)
    | _, _, _, _ => .error .indexError

/-- `getContourLevels` (densities.py:18-55) -/
def contourLevels (argsort : List K → List Nat) (shape : List Nat) (inbins : List Nat → K) (contours : List K) (missing : K)
    (halfEdge : Bool) : Except DErr (List K) :=
  let bins := flat shape (if halfEdge then halveEdges inbins 0 shape else inbins)
  let norm := bins.sum
  let sortgrid := (argsort (flat shape inbins)).map (fun i => bins.getD i 0)
  contours.mapM (fun c => levelAt sortgrid ((1 - c) * norm - missing))

/-! ## Equal-density limits -/

/-- `InterpGridCache` (densities.py:14-15) -/
structure LimGrid (K : Type) where
  factor : K
  grid : List K
  norm : K
  sortgrid : List K

/-- `initLimitGrids` (densities.py:184-203) for a given fine grid `grid` and a given sort -/
def mkGrid (sort : List K → List K) (factor : K) (grid P : List K) : LimGrid K where
  factor := factor
  grid := grid
  norm := grid.sum - (P.getLastD 0) / 2 - (P.headD 0) / 2
  sortgrid := sort grid

/-- `np.argmax` of a boolean array: the first true entry, zero if there is none -/
def argmaxB (l : List Bool) : Nat := if true ∈ l then l.idxOf true else 0

/-- `a[i]` for an integer that may be negative -/
def pyGet (l : List K) (i : Int) : Except DErr K :=
  match (if 0 ≤ i then l[i.toNat]? else if 0 ≤ i + l.length then l[(i + l.length).toNat]? else none) with
  | some v => .ok v
  | none => .error .indexError

/-- the density at the limits (densities.py:223-228) -/
def trialOf (g : LimGrid K) (target : K) : Except DErr K := do
  let cs := cumsum g.sortgrid
  let ix := searchsorted cs target
  let t ← pyGet g.sortgrid ix
  if ix > 0 then do
    let c1 ← pyGet cs ix
    let c0 ← pyGet cs (ix - 1)
    let d := c1 - c0
    let frac := (c1 - target) / d
    let s ← pyGet g.sortgrid (ix + 1)
    pure ((1 - frac) * t + frac * s)
  else pure t

structure Limit (K : Type) where
  mn : K
  mx : K
  bot : Bool
  top : Bool
  deriving DecidableEq

/-- the lower limit (densities.py:231-237) -/
def lower (x0 fine : K) (g : LimGrid K) (trial : K) : Except DErr (K × Bool) := do
  let g0 ← pyGet g.grid 0
  if g0 ≥ trial then pure (x0, true)
  else do
    let i := argmaxB (g.grid.map (fun v => decide (v > trial)))
    let gi ← pyGet g.grid i
    let gp ← pyGet g.grid ((i : Int) - 1)
    let d := (gi - trial) / (gi - gp)
    pure (x0 + ((i : K) - d) * fine, false)

/-- the upper limit (densities.py:239-245) -/
def upper (x0 xl fine : K) (g : LimGrid K) (trial : K) : Except DErr (K × Bool) := do
  let gl ← pyGet g.grid (-1)
  if gl ≥ trial then pure (xl, true)
  else do
    let i : Int := (g.grid.length : Int) - argmaxB (g.grid.reverse.map (fun v => decide (v > trial))) - 1
    let gi ← pyGet g.grid i
    let gn ← pyGet g.grid (i + 1)
    let d := (gi - trial) / (gi - gn)
    pure (x0 + ((i : K) + d) * fine, false)

/-- the limits for one probability (densities.py:220-246) -/
def limitFor (x0 xl spacing : K) (g : LimGrid K) (p : K) : Except DErr (Limit K) := do
  let trial ← trialOf g ((1 - p) * g.norm)
  let lo ← lower x0 (spacing / g.factor) g trial
  let hi ← upper x0 xl (spacing / g.factor) g trial
  pure ⟨lo.1, hi.1, lo.2, hi.2⟩

/-- what is passed as `p`: a number, a list or tuple, or an array -/
inductive PArg (K : Type)
  | num (p : K)
  | seq (l : List K)
  | arr (l : List K)

inductive Limits (K : Type)
  | one (l : Limit K)
  | many (l : List (Limit K))

/-- `getLimits` (densities.py:205-247): `np.atleast_1d` returns the same object only for arrays -/
def getLimits (x0 xl spacing : K) (g : LimGrid K) : PArg K → Except DErr (Limits K)
  | .num p => do let l ← limitFor x0 xl spacing g p; pure (.one l)
  | .seq [] => .ok (.many [])
  | .seq (p :: _) => do let l ← limitFor x0 xl spacing g p; pure (.one l)
  | .arr l => do let r ← l.mapM (limitFor x0 xl spacing g); pure (.many r)

end Verif.Density
