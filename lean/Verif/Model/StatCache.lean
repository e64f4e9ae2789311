import Verif.Py.Str
import Verif.Py.Dict

/-!
# Model of the stored statistics of `MCSamples` (`python/getdist/chains.py:271-420, 1276-1322`, `python/getdist/mcsamples.py:271-320, 401-511, 574-582, 1387-1425, 2001-2038, 2107-2134, 2199-2216, 2311-2327`)

An `MCSamples` object remembers means, covariance, correlations, densities, limits and likelihood statistics.  Modelled:
which of these are dropped when samples, ranges or settings change, which are computed again when asked for, and what every
query answers.  Parameters (`Lib`): the numerical formulas, as functions of the data, the ranges and the settings.
Simplified: a parameter is found by its name only (no aliases); every change of the samples keeps one column per name; the
data, weights and likelihoods are one value; `self.means` also stands for `vars` and `sddev`.
-/

namespace Verif.StatCache
open Verif.Py

/-- lower and upper limits of the parameters (`self.ranges`) -/
abbrev Ranges := Dict Str (Int × Int)

/-- the formulas: all results are functions of the samples, the ranges and the settings -/
structure Lib (D G M C L P X : Type) where
  means : D → M
  cov : D → C
  corr : C → C
  like : D → G → Option L            -- none without likelihoods (mcsamples.py:2005-2007)
  dens : D → Ranges → G → Str → P
  marge : P → D → Ranges → G → Str → X
  limits : G → Str → Option (Int × Int)   -- `limits[name]` or `all_limits` of the settings (mcsamples.py:402-418)
  sub : Nat → C → C                  -- `m[:k, :k]`

/-- the object; `par` holds the `limmin`, `limmax` attributes of the parameters, `lims` their `limits` attributes -/
structure St (D G M C L P X : Type) where
  data : D
  ranges : Ranges
  cfg : G
  names : List (Str × Bool)          -- name, isDerived
  index : List Str := []             -- the keys of `self.index`
  par : Ranges := []
  means : Option M := none
  fullcov : Option C := none
  corr : Option C := none
  needsUpdate : Bool := true
  done1D : Bool := false
  density1D : Dict Str P := []
  lims : Dict Str X := []
  like : Option L := none

variable {D G M C L P X : Type}

inductive Err
  | typeError | valueError
  deriving DecidableEq

/-- `_weightsChanged` (chains.py:310-323), with the samples that were set before the call -/
def weightsChanged (s : St D G M C L P X) (d : D) : St D G M C L P X :=
  { s with data := d, means := none, fullcov := none, corr := none, needsUpdate := true }

/-- one parameter of `_initLimits` (mcsamples.py:408-418) -/
def initLimit (lib : Lib D G M C L P X) (g : G) (r : Ranges) (n : Str) : Ranges :=
  match lib.limits g n with
  | some v => r.set n v
  | none => r

/-- `_initLimits` (mcsamples.py:401-423): limits given by the settings replace the stored ranges -/
def initLimits (lib : Lib D G M C L P X) (g : G) (names : List Str) (r : Ranges) : Ranges := names.foldl (initLimit lib g) r

/-- the names -/
def list (s : St D G M C L P X) : List Str := s.names.map (·.1)

/-- the means, computed if not stored (`getMeans`, chains.py:388-394) -/
def theMeans (lib : Lib D G M C L P X) (s : St D G M C L P X) : M := s.means.getD (lib.means s.data)

/-- `updateBaseStatistics` (chains.py:1297-1308, mcsamples.py:487-511) -/
def update (lib : Lib D G M C L P X) (s : St D G M C L P X) : St D G M C L P X :=
  let r := initLimits lib s.cfg (list s) s.ranges
  { s with means := some (theMeans lib s), index := list s, needsUpdate := false, fullcov := some (lib.cov s.data),
           done1D := false, density1D := [], ranges := r, par := r, like := lib.like s.data s.cfg }

/-- `if self.needs_update: self.updateBaseStatistics()` (mcsamples.py:1395, 1422, 1614, 1640) -/
def sync (lib : Lib D G M C L P X) (s : St D G M C L P X) : St D G M C L P X := if s.needsUpdate then update lib s else s

/-- `get1DDensityGridData` (mcsamples.py:1404-1562) for a name; `kw` are the settings after replacing those given as keyword
arguments, none without keyword arguments; only then the result is stored -/
def gridData (lib : Lib D G M C L P X) (s : St D G M C L P X) (n : Str) (kw : Option G) : St D G M C L P X × Option P :=
  let s := sync lib s
  if n ∈ s.index then
    let p := lib.dens s.data s.par (kw.getD s.cfg) n
    (match kw with
     | none => { s with density1D := s.density1D.set n p }
     | some _ => s, some p)
  else (s, none)

/-- `get1DDensity` (mcsamples.py:1387-1401) -/
def density (lib : Lib D G M C L P X) (s : St D G M C L P X) (n : Str) (kw : Option G) : St D G M C L P X × Option P :=
  let s := sync lib s
  match kw, s.density1D.get? n with
  | none, some p => (s, some p)
  | kw, _ => gridData lib s n kw

/-- one parameter of `_setDensitiesandMarge1D` (mcsamples.py:2209-2212, 2141-2152) -/
def margeOne (lib : Lib D G M C L P X) (s : St D G M C L P X) (n : Str) : St D G M C L P X :=
  let s := (gridData lib s n none).1
  match density lib s n none with
  | (s, some p) => { s with lims := s.lims.set n (lib.marge p s.data s.par s.cfg n) }
  | (s, none) => s

/-- `_setDensitiesandMarge1D` (mcsamples.py:2199-2214) -/
def setMarge (lib : Lib D G M C L P X) (s : St D G M C L P X) : St D G M C L P X :=
  if s.done1D then s else { (list s).foldl (margeOne lib) s with done1D := true }

/-- what a `MargeStats` object returned earlier shows: its list of names is the list of the samples, and the limits are
attributes of these (`m.names = self.paramNames.names`, mcsamples.py:2118) -/
def margeView (s : St D G M C L P X) : List (Str × Option X) := (list s).map (fun n => (n, s.lims.get? n))

/-- `getMargeStats` (mcsamples.py:2110-2124) -/
def margeStats (lib : Lib D G M C L P X) (s : St D G M C L P X) : St D G M C L P X × List (Str × Option X) :=
  (setMarge lib s, margeView (setMarge lib s))

/-- `getLikeStats` (mcsamples.py:2126-2134) -/
def likeStats (lib : Lib D G M C L P X) (s : St D G M C L P X) : St D G M C L P X × Option L :=
  match s.like with
  | some l => (s, some l)
  | none => ({ s with like := lib.like s.data s.cfg }, lib.like s.data s.cfg)

/-- `getMeans` (chains.py:386-398) -/
def getMeans (lib : Lib D G M C L P X) (s : St D G M C L P X) : St D G M C L P X × M :=
  ({ s with means := some (theMeans lib s) }, theMeans lib s)

/-- `getCov` (chains.py:338-352) without arguments -/
def getCov (lib : Lib D G M C L P X) (s : St D G M C L P X) : St D G M C L P X × C :=
  match s.fullcov with
  | some c => (s, c)
  | none => ({ s with fullcov := some (lib.cov s.data) }, lib.cov s.data)

/-- `getCorrelationMatrix` (chains.py:363-371) -/
def getCorr (lib : Lib D G M C L P X) (s : St D G M C L P X) : St D G M C L P X × C :=
  match s.corr with
  | some c => (s, c)
  | none => ({ (getCov lib s).1 with corr := some (lib.corr (getCov lib s).2) }, lib.corr (getCov lib s).2)

/-- `numNonDerived` -/
def numSampled (s : St D G M C L P X) : Nat := (s.names.filter (fun e => !e.2)).length

/-- `getCovMat` (mcsamples.py:574-582): `None[:k, :k]` is a `TypeError` -/
def getCovMat (lib : Lib D G M C L P X) (s : St D G M C L P X) : Except Err (List Str × C) :=
  match s.fullcov with
  | none => .error .typeError
  | some c => .ok ((list s).take (numSampled s), lib.sub (numSampled s) c)

/-- what the user may do.  `setData` is any of `filter`, `reweightAddingLogLikes`, `cool`, `weighted_thin`, `setSamples`,
`changeSamples`, `removeBurn`, `deleteZeros`; `addDerived` has the data with the new column -/
inductive Op (D G : Type)
  | setData (d : D)
  | setRanges (r : Dict Str (Int × Int))
  | addDerived (d : D) (name : Str) (range : Option (Int × Int))
  | updateSettings (g : G) (doUpdate : Bool)
  | updateBase
  | means | cov | corr | covMat | like | marge
  | density (name : Str) (kw : Option G)

/-- `MCSamples.addDerived` (mcsamples.py:2311-2327, chains.py:1310-1322): the range is set first -/
def addDerived (s : St D G M C L P X) (d : D) (name : Str) (range : Option (Int × Int)) : St D G M C L P X × Except Err Unit :=
  let s := match range with
    | some v => { s with ranges := s.ranges.set name v }
    | none => s
  if name ∈ list s then (s, .error .valueError)
  else ({ weightsChanged s d with names := s.names ++ [(name, true)] }, .ok ())

/-- the object after one step; an exception leaves what was changed before it -/
def step (lib : Lib D G M C L P X) (s : St D G M C L P X) : Op D G → St D G M C L P X
  | .setData d => weightsChanged s d
  | .setRanges r => { s with ranges := s.ranges.update r, needsUpdate := true }     -- mcsamples.py:287-305
  | .addDerived d n r => (addDerived s d n r).1
  | .updateSettings g u => if u then update lib { s with cfg := g } else { s with cfg := g }   -- mcsamples.py:430-456
  | .updateBase => update lib s
  | .means => (getMeans lib s).1
  | .cov => (getCov lib s).1
  | .corr => (getCorr lib s).1
  | .covMat => s
  | .like => (likeStats lib s).1
  | .marge => (margeStats lib s).1
  | .density n kw => (density lib s n kw).1

/-- a sequence of steps -/
def run (lib : Lib D G M C L P X) (s : St D G M C L P X) (ops : List (Op D G)) : St D G M C L P X := ops.foldl (step lib) s

/-- a loaded object: samples, ranges, settings and names are set, then `updateBaseStatistics` (mcsamples.py:458-485, 487-511) -/
def load (lib : Lib D G M C L P X) (d : D) (r : Ranges) (g : G) (names : List (Str × Bool)) : St D G M C L P X :=
  update lib { data := d, ranges := r, cfg := g, names := names }

end Verif.StatCache
